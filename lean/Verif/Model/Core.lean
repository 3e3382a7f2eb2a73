import Verif.Model.Config
import Verif.Model.Runner
/-
Model of `src/cfnlint/core.py` and of the loop of `src/cfnlint/__main__.py`.
-/
namespace CfnLint

/-- Ways a run can end abnormally: `CfnLintExitException` with an exit code (core.py:25-39), or any other
Python exception. -/
inductive RunErr where
  | exit (code : Nat)
  | py (e : PyErr)
deriving DecidableEq, Repr, Inhabited

abbrev RunM := Except RunErr

/-- lift a Python computation -/
def liftPy {α : Type} : PyM α → RunM α
  | .ok a => .ok a
  | .error e => .error (.py e)

/-- `get_exit_code`, core.py:63-74. -/
def exitCodeLoop : List Match → Nat → PyM Nat
  | [], code => .ok code
  | m :: ms, code =>
    match severity m.rule with
    | .error e => .error e
    | .ok .informational => exitCodeLoop ms (code ||| 8)
    | .ok .warning => exitCodeLoop ms (code ||| 4)
    | .ok .error => exitCodeLoop ms (code ||| 2)
    | .ok .unknown => exitCodeLoop ms code

def getExitCode (ms : List Match) : PyM Nat := exitCodeLoop ms 0

/-- The comparison of `key=lambda x: (x.filename, x.linenumber, x.rule.id)`, core.py:246. -/
def sortKeyLe (a b : Match) : Bool :=
  decide (a.filename < b.filename) ||
  (a.filename == b.filename && (decide (a.line < b.line) ||
    (a.line == b.line && decide (a.rule.id ≤ b.rule.id))))

/-- `set(regions).issubset(set(REGIONS))`, core.py:217. Building the set raises for unhashable
entries. -/
def regionsSupported (all : List String) (regions : List Val) : PyM Bool :=
  if regions.any (fun r => !hashable r) then .error (.typeError "unhashable type")
  else .ok (regions.all (fun r => all.any (fun a => Val.str a == r)))

/-- `run_checks`, core.py:213-248.  The parts of the run that are not modelled here are arguments:
`construct` is `Runner.__init__`, `transform` is `runner.transform()`, `run` is `runner.run()`; each may
raise. An exception of `runner.run()` is caught, an exception object is built but never raised
(core.py:243-245), and the errors collected so far (none) are returned. -/
def runChecks (all : List String) (regions : List Val) (cfg : Cfg) (construct : PyM Unit)
    (transform run : PyM (List Match)) : RunM (List Match) :=
  match (if regions.isEmpty then .ok true else regionsSupported all regions) with
  | .error e => .error (.py e)
  | .ok false => .error (.exit 32)
  | .ok true =>
    match construct with
    | .error e => .error (.py e)
    | .ok () =>
      match isRuleEnabled cfg transformErrorRule with
      | .error e => .error (.py e)
      | .ok transformEnabled =>
        match transform with
        | .error e => .error (.py e)
        | .ok (t :: ts) => if transformEnabled then .ok (t :: ts) else .ok []
        | .ok [] =>
          match run with
          | .error _ => .ok []
          | .ok ms => .ok (ms.mergeSort sortKeyLe)

/-! ### get_template_rules -/

/-- The state that survives from one template to the next: the template part of the configuration
(`args.template_args`) and the cached collection (core.py:22,167). -/
structure LintState where
  templateArgs : List (String × Val) := []
  cached : Option Coll := none
deriving DecidableEq, Repr

/-- The outcome of `decode(filename)` (decode/__init__.py:21): a template and errors. -/
structure Decoded where
  template : Val
  errors : List Match
deriving DecidableEq, Repr

/-- `args` with the current template part -/
def sourcesWith (args : Sources) (st : LintState) : Sources := { args with template := st.templateArgs }

/-- core.py:169-181: is a parse error of the next template going to be ignored? -/
def ignoreBadTemplate (args : Sources) : PyM Bool :=
  if args.ignoreBadTemplate.truthy then .ok true
  else do
    let ign ← args.ignoreChecks.orEmpty
    let inc ← args.includeChecks
    let man ← args.mandatoryChecks.orEmpty
    let en ← isEnabled parseErrorRule false ign inc man
    .ok (!en)

/-- `configure_rules or []` as a dictionary from rule ids. -/
def asRuleConfig : Val → PyM (List (String × Val))
  | .dict kvs => .ok (kvs.filterMap (fun kv => match kv.1 with
      | .str s => some (s, kv.2)
      | .int _ => none))
  | v => if v.truthy then .error (.typeError "configure_rules") else .ok []

/-- The configuration handed to the collection, core.py:196-210. -/
def currentCfg (args : Sources) : PyM Cfg := do
  let ign ← args.ignoreChecks.orEmpty
  let inc ← args.includeChecks
  let man ← args.mandatoryChecks.orEmpty
  let cr ← asRuleConfig args.configureRules
  .ok { ignore := ign, incl := inc, configureRules := cr,
        includeExperimental := args.includeExperimental.truthy, mandatory := man }

/-- `get_rules`, core.py:97-109: `objs` are the freshly created rule objects of the rule directories. -/
def getRules (objs : List RuleObj) (cfg : Cfg) : PyM Coll :=
  match Coll.init objs cfg with
  | .error e => .error e
  | .ok c => c.extend (List.range objs.length)

/-- `get_template_rules`, core.py:165-210.  The result is the template, the collection (`none` stands for
the empty list returned with errors) and the errors.  A cached collection without active rules is falsy
(`RulesCollection.__len__`), so a new one is created. -/
def getTemplateRules (objs : List RuleObj) (args : Sources) (st : LintState) (d : Decoded) :
    PyM (LintState × Val × Option Coll × List Match) :=
  match ignoreBadTemplate (sourcesWith args st) with
  | .error e => .error e
  | .ok ignoreBad =>
    match d.errors with
    | e :: es =>
      if es.isEmpty && ignoreBad && e.rule.id == "E0000" then .ok (st, d.template, none, [])
      else .ok (st, d.template, none, e :: es)
    | [] =>
      match setTemplateArgs d.template with
      | .error e => .error e
      | .ok targs =>
        let args' : Sources := { args with template := targs }
        match currentCfg args' with
        | .error e => .error e
        | .ok cfg =>
          let coll := match st.cached with
            | some c => if c.rules.isEmpty then getRules objs cfg else c.configure cfg
            | none => getRules objs cfg
          match coll with
          | .error e => .error e
          | .ok c => .ok ({ templateArgs := targs, cached := some c }, d.template, some c, [])

/-- The loop of `__main__.main` (lines 28-42) over the templates of one run.  `check` stands for
`run_cli`, which is given the template and the collection (`none` for the empty list that stands in for
it when a bad template is ignored). -/
def lintAll (objs : List RuleObj) (args : Sources)
    (check : Val → Option Coll → RunM (List Match)) :
    LintState → List Decoded → RunM (List (List Match))
  | _, [] => .ok []
  | st, d :: ds =>
    match getTemplateRules objs args st d with
    | .error e => .error (.py e)
    | .ok (st', t, coll, errors) =>
      let here : RunM (List Match) :=
        match errors with
        | [] => if t.truthy then check t coll else .ok []
        | es => .ok es
      match here with
      | .error e => .error e
      | .ok ms =>
        match lintAll objs args check st' ds with
        | .error e => .error e
        | .ok rest => .ok (ms :: rest)

end CfnLint
