import Verif.Model.Core
import Verif.Model.Runner
import Verif.Model.Template
import Verif.Model.Traverse
/-
Model of a whole run over one template: the decorator `matching` (rules/__init__.py:108-151), `RulesCollection.run`
(rules/__init__.py:378-408) with the traversal of `run_resource`, and their place inside `Runner.run` and `run_checks`.

What a rule does is a parameter (`Behaviour`): the functions a rule class overrides, applied to the plain template. A rule
that reads more of `cfn` than the template (the regions, the `Globals` of before a transformation) has it in its behaviour.
The models of the single rules are instances, see Props/Lint.
-/
namespace CfnLint

/-- what a rule class overrides, rules/__init__.py:51, 96-98; a function that is not overridden is `None` -/
structure Behaviour where
  /-- `initialize(cfn)` -/
  setUp : Val → PyM Unit := fun _ => .ok ()
  /-- `match(cfn)` -/
  whole : Option (Val → PyM (List (Path × String))) := none
  /-- `resource_property_types` -/
  propertyTypes : List String := []
  /-- `match_resource_properties(properties, resource_type, path, cfn)` -/
  properties : Option (Val → Val → String → Path → PyM (List (Path × String))) := none
  /-- `resource_sub_property_types` -/
  subTypes : List String := []
  /-- `match_resource_sub_properties(properties, property_type, path, cfn)` -/
  subProperties : Option (Val → Val → String → Path → PyM (List (Path × String))) := none

/-- the loop of the decorator, rules/__init__.py:131-146: each result gets its place in the file -/
def placeAll (filename : String) (info : RuleInfo) (t : MVal) : List (Path × String) → PyM (List Match)
  | [] => .ok []
  | (p, msg) :: rest =>
    match matchSpan t p with
    | .error e => .error e
    | .ok (l, c, le, ce) =>
      match placeAll filename info t rest with
      | .error e => .error e
      | .ok ms => .ok ({ line := l, col := c, lineEnd := le, colEnd := ce, filename := filename, rule := info,
                         message := msg } :: ms)

/-- the decorator after the test of the type, rules/__init__.py:124-147 -/
def placed (filename : String) (info : RuleInfo) (t : MVal) (results : PyM (List (Path × String))) : PyM (List Match) :=
  match results with
  | .error e => .error e
  | .ok rs => placeAll filename info t rs

/-- `matchall`, rules/__init__.py:153-157 -/
def matchAll (filename : String) (t : MVal) (info : RuleInfo) (b : Behaviour) : PyM (List Match) :=
  match b.whole with
  | none => .ok []
  | some f => placed filename info t (f t.erase)

/-- `matchall_resource_properties`, rules/__init__.py:159-163, 120-122 -/
def matchProperties (filename : String) (t : MVal) (props : Val) (type : String) (path : Path) (info : RuleInfo)
    (b : Behaviour) : PyM (List Match) :=
  match b.properties with
  | none => .ok []
  | some f => if b.propertyTypes.contains type then placed filename info t (f t.erase props type path) else .ok []

/-- `matchall_resource_sub_properties`, rules/__init__.py:165-169, 120-122 -/
def matchSubProperties (filename : String) (t : MVal) (v : Visit) (info : RuleInfo) (b : Behaviour) : PyM (List Match) :=
  match b.subProperties with
  | none => .ok []
  | some f =>
    if b.subTypes.contains v.typeName then placed filename info t (f t.erase v.value v.typeName v.path) else .ok []

/-- the registered rules in the order of the collection -/
def Coll.active (c : Coll) : List RuleObj := c.rules.filterMap (fun i => c.objs[i]?)

/-- `for rule in self.rules: rule.initialize(cfn)`, rules/__init__.py:381-382: nothing catches an exception here -/
def initializeAll (beh : RuleObj → Behaviour) (t : Val) : List RuleObj → PyM Unit
  | [] => .ok ()
  | r :: rest =>
    match (beh r).setUp t with
    | .error e => .error e
    | .ok () => initializeAll beh t rest

/-- the checks on one resource, rules/__init__.py:391-406: those on the properties, then those the traversal makes
(`run_resource` and `resource_property` go over all rules at every place) -/
def resourceChecks (S : TypeSpecs) (beh : RuleObj → Behaviour) (rules : List RuleObj) (filename : String) (t : MVal)
    (name : Key) (resource : Val) : List (String × PyM (List Match)) :=
  match resource with
  | .dict kvs =>
    match dlookup (.str "Type") kvs, dlookup (.str "Properties") kvs with
    | some (.str rt), some (.dict props) =>
      rules.map (fun r => (r.info.id, matchProperties filename t (.dict props) rt
        [.str "Resources", name, .str "Properties"] r.info (beh r))) ++
      (visitResource S rt props [.str "Resources", name, .str "Properties"]).flatMap (fun v =>
        rules.map (fun r => (r.info.id, matchSubProperties filename t v r.info (beh r))))
    | _, _ => []
  | _ => []

/-- `RulesCollection.run`, rules/__init__.py:378-408 -/
def collectionRun (S : TypeSpecs) (beh : RuleObj → Behaviour) (c : Coll) (filename : String) (t : MVal) :
    PyM (List Match) :=
  match initializeAll beh t.erase c.active with
  | .error e => .error e
  | .ok () =>
    match runChecksSeq c.cfg filename (c.active.map (fun r => (r.info.id, matchAll filename t r.info (beh r)))) [] with
    | .error e => .error e
    | .ok ms =>
      match mGetResources t with
      | .error e => .error e
      | .ok rs =>
        runChecksSeq c.cfg filename
          (rs.flatMap (fun kv => resourceChecks S beh c.active filename t kv.1.key kv.2.erase)) ms

/-- `run_checks` on a template without a transformation, core.py:213-248 with runner.py:44-78; the mandatory checks are
those of the configuration the rules were loaded with -/
def lintTemplate (all : List String) (regions : List Val) (S : TypeSpecs) (beh : RuleObj → Behaviour) (c : Coll)
    (filename : String) (t : MVal) : RunM (List Match) :=
  runChecks all regions c.cfg (.ok ()) (.ok []) (runnerRun t (collectionRun S beh c filename t) c.cfg.mandatory)

/-- `run_cli` as `main` calls it, __main__.py:33-38 with core.py:43-60: for the rules of the collection, on the template with its
marks; `mark` and `name` are what reading the files gave for a template. Without a collection (a bad template that is ignored)
there is no template either. -/
def checkWith (all : List String) (regions : List Val) (S : TypeSpecs) (beh : RuleObj → Behaviour) (name : Val → String)
    (mark : Val → MVal) : Val → Option Coll → RunM (List Match)
  | t, some c => lintTemplate all regions S beh c (name t) (mark t)
  | _, none => .ok []

end CfnLint
