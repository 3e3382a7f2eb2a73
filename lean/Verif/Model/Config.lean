import Verif.Model.Rules
/-
Model of `src/cfnlint/config.py`: configuration sources, precedence, template Metadata, merging of
configuration files, the `-x` option, selection of templates.
Values of options are `Val`s. Marks are not modelled here.
-/
namespace CfnLint

/-- The three sources held by `ConfigMixIn` (config.py:475-484). `cli` has an attribute for every option
(argparse sets defaults); the other two are dictionaries. -/
structure Sources where
  cli : String → Val
  template : List (String × Val) := []
  file : List (String × Val) := []

/-- `dict.get(name)` with `None` for a missing key -/
def getOpt (k : String) (d : List (String × Val)) : Val := (dlookup k d).getD .none

/-- `_get_argument_value`, config.py:486-496. -/
def getArgumentValue (s : Sources) (name : String) (isTemplate isConfigFile : Bool) : Val :=
  let cliValue := s.cli name
  let templateValue := getOpt name s.template
  let fileValue := getOpt name s.file
  if cliValue.truthy then cliValue
  else if templateValue.truthy && isTemplate then templateValue
  else if fileValue.truthy && isConfigFile then fileValue
  else cliValue

/-- A Python list value; anything else is not a list here (`TypeError` when concatenated/iterated). -/
def Val.asList : Val → PyM (List Val)
  | .list xs => .ok xs
  | _ => .error (.typeError "can only concatenate list")

/-- `x or []` for an optional list argument (rules/__init__.py:57-59,193-195). -/
def Val.orEmpty : Val → PyM (List Val)
  | v => if v.truthy then v.asList else .ok []

namespace Sources

/-- config.py:499-500 -/
def ignoreChecks (s : Sources) : Val := getArgumentValue s "ignore_checks" true true
/-- config.py:503-505: `['W', 'E'] + results` -/
def includeChecks (s : Sources) : PyM (List Val) :=
  (getArgumentValue s "include_checks" true true).asList.map ([Val.str "W", Val.str "E"] ++ ·)
/-- config.py:508-509 -/
def mandatoryChecks (s : Sources) : Val := getArgumentValue s "mandatory_checks" false true
/-- config.py:512-513 -/
def includeExperimental (s : Sources) : Val := getArgumentValue s "include_experimental" true true
/-- config.py:525-526 -/
def ignoreBadTemplate (s : Sources) : Val := getArgumentValue s "ignore_bad_template" true true
/-- config.py:622-624 -/
def configureRules (s : Sources) : Val := getArgumentValue s "configure_rules" true true
/-- config.py:594-596 -/
def appendRules (s : Sources) : Val := getArgumentValue s "append_rules" false true
/-- config.py:598-600 -/
def overrideSpec (s : Sources) : Val := getArgumentValue s "override_spec" false true
/-- config.py:529-530 -/
def debug (s : Sources) : Val := getArgumentValue s "debug" false false
/-- config.py:533-534 -/
def format (s : Sources) : Val := getArgumentValue s "format" false true

/-- `'ALL_REGIONS' in results` for a list or a string (substring test); other values raise. -/
def regionsHasAll : Val → PyM Bool
  | .list xs => .ok (xs.contains (Val.str "ALL_REGIONS"))
  | .str s => .ok (decide ("ALL_REGIONS".toList <:+: s.toList))
  | .dict kvs => .ok (dhas (Key.str "ALL_REGIONS") kvs)
  | _ => .error (.typeError "argument is not iterable")

/-- config.py:516-522; `all` is `REGIONS`. -/
def regions (all : List String) (s : Sources) : PyM Val :=
  let results := getArgumentValue s "regions" true true
  if !results.truthy then .ok (.list [.str "us-east-1"])
  else
    match regionsHasAll results with
    | .error e => .error e
    | .ok true => .ok (.list (all.map .str))
    | .ok false => .ok results

end Sources

/-! ### Template Metadata -/

/-- One iteration of the loop of config.py:446-467: all seven `if`s are tried in turn, at most one
matches. -/
def templateArgStep (name : Key) (v : Val) (defaults : List (String × Val)) : List (String × Val) :=
  match name with
  | .int _ => defaults
  | .str n =>
    let d := if n = "ignore_checks" ∧ v.isList then dset "ignore_checks" v defaults else defaults
    let d := if n = "regions" ∧ v.isList then dset "regions" v d else d
    let d := if n = "append_rules" ∧ v.isList then dset "append_rules" v d else d
    let d := if n = "override_spec" ∧ v.isStr then dset "override_spec" v d else d
    let d := if n = "ignore_bad_template" ∧ v.isBool then
      dset "ignore_bad_template" v d else d
    let d := if n = "include_checks" ∧ v.isList then dset "include_checks" v d else d
    if n = "configure_rules" ∧ v.isDict then dset "configure_rules" v d else d

/-- the loop over `configs.items()` -/
def templateArgLoop : List (Key × Val) → List (String × Val) → List (String × Val)
  | [], acc => acc
  | (k, v) :: rest, acc => templateArgLoop rest (templateArgStep k v acc)

/-- `set_template_args`, config.py:441-470. The chained `.get`s raise when `Metadata` or `cfn-lint` is not
a dict. -/
def setTemplateArgs (template : Val) : PyM (List (String × Val)) :=
  match template with
  | .dict _ =>
    match template.getD "Metadata" (.dict []) with
    | .error e => .error e
    | .ok md =>
      match md.getD "cfn-lint" (.dict []) with
      | .error e => .error e
      | .ok cl =>
        match cl.getD "config" (.dict []) with
        | .error e => .error e
        | .ok (.dict configs) => .ok (templateArgLoop configs [])
        | .ok _ => .ok []
  | _ => .ok []

/-! ### Merging configuration files -/

mutual
/-- the value stored for a key that both configurations have, config.py:196-201 -/
def mergeVal (u p : Val) : Val :=
  match u with
  | .dict ukvs =>
    match p with
    | .dict pkvs => .dict (mergeKeep ukvs pkvs ++ pkvs.filter (fun kv => !dhas kv.1 ukvs))
    | _ => p
  | _ => p
/-- the first loop, config.py:193-201, over the keys of the user configuration -/
def mergeKeep : List (Key × Val) → List (Key × Val) → List (Key × Val)
  | [], _ => []
  | (k, v) :: rest, pkvs =>
    match dlookup k pkvs with
    | some pv => (k, mergeVal v pv) :: mergeKeep rest pkvs
    | none => (k, v) :: mergeKeep rest pkvs
end

/-- `merge_config`, config.py:173-209 (both loops; the user dictionary is updated in place and
returned). -/
def mergeConfig (u p : List (Key × Val)) : List (Key × Val) :=
  mergeKeep u p ++ p.filter (fun kv => !dhas kv.1 u)

/-! ### The `-x` option -/

/-- `s.split(c)` on the characters of a string -/
def splitOn (c : Char) : List Char → List (List Char)
  | [] => [[]]
  | x :: xs =>
    if x = c then [] :: splitOn c xs
    else
      match splitOn c xs with
      | [] => [[x]]
      | y :: ys => (x :: y) :: ys

/-- `l[i]`, raising `IndexError` -/
def idx {α : Type} (l : List α) (i : Nat) : PyM α :=
  match l[i]? with
  | some a => .ok a
  | none => .error (.indexError "list index out of range")

/-- config.py:264-266: one `ID:key=value` item -/
def parseItem (config : List Char) : PyM (String × String × String) := do
  let ruleId ← idx (splitOn ':' config) 0
  let r1 ← idx (splitOn ':' config) 1
  let name ← idx (splitOn '=' r1) 0
  let value ← idx (splitOn '=' r1) 1
  .ok (String.ofList ruleId, String.ofList name, String.ofList value)

/-- config.py:263-269 -/
def parseRuleLoop : List (List Char) → List (String × List (String × String)) →
    PyM (List (String × List (String × String)))
  | [], acc => .ok acc
  | c :: cs, acc =>
    match parseItem c with
    | .error e => .error e
    | .ok (rid, k, v) => parseRuleLoop cs (dset rid (dset k v ((dlookup rid acc).getD [])) acc)

/-- `_parse_rule_configuration`, config.py:259-271 -/
def parseRuleConfiguration (s : String) : PyM (List (String × List (String × String))) :=
  parseRuleLoop (splitOn ',' s.toList) []

/-- the inner loop of config.py:278-283 -/
def mergeRuleItems : List (String × List (String × String)) →
    List (String × List (String × String)) → List (String × List (String × String))
  | [], items => items
  | (k, vs) :: rest, items =>
    match dlookup k items with
    | some old => mergeRuleItems rest (dset k (vs.foldl (fun o x => dset x.1 x.2 o) old) items)
    | none => mergeRuleItems rest (dset k vs items)

/-- `RuleConfigurationAction.__call__`, config.py:273-287. `none`: an exception was caught, the help is
printed and the program exits. -/
def ruleConfigurationAction : List String → List (String × List (String × String)) →
    Option (List (String × List (String × String)))
  | [], items => some items
  | v :: vs, items =>
    match parseRuleConfiguration v with
    | .error _ => none
    | .ok new => ruleConfigurationAction vs (mergeRuleItems new items)

/-! ### Template selection -/

/-- The loop of config.py:573-592, `_ignore_templates`: `glob` is an arbitrary function. -/
def expandIgnore (glob : String → List String) : List String → List String
  | [] => []
  | f :: fs => (if (glob f).isEmpty then [f] else glob f) ++ expandIgnore glob fs

/-- The loop of config.py:553-569. -/
def expandTemplates (glob : String → List String) (ignored : List String) :
    List String → List String
  | [] => []
  | f :: fs =>
    (if (glob f).isEmpty then (if f ∈ ignored then [] else [f])
      else (glob f).filter (fun g => g ∉ ignored)) ++ expandTemplates glob ignored fs

/-- string order by code points, as Python compares `str` -/
def strLe (a b : String) : Bool := decide (a ≤ b)

/-- `templates`, config.py:537-571, for pattern lists; `None` when no template was given. -/
def selectTemplates (glob : String → List String) (alt templates ignore : List String) :
    Option (List String) :=
  let filenames := if !alt.isEmpty then alt else templates
  if filenames.isEmpty then none
  else some ((expandTemplates glob (expandIgnore glob ignore) filenames).mergeSort strLe)

end CfnLint
