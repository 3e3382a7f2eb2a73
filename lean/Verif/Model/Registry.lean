import Verif.Model.Runner
import Verif.Model.Graph
import Verif.Model.CheckValue
import Verif.Model.ResProps
/-
Model of E3000 (rules/resources/ResourceSchema.py) and of the schemas it uses, which `run_cli` loads for each template (core.py:53-58) and keeps (helpers.py:322).
`validate` stands for `jsonschema.validate`: `none` for a valid object, a text for the message of a `ValidationError`, an error for every other exception. `shown` is `str`
of an object; such a text has no line ends.
-/
namespace CfnLint

/-- the file system: `os.path.expanduser`, `os.path.isdir`, `os.listdir`, and the JSON value in a file of a directory -/
structure SchemaFiles where
  expand : String → String
  isDir : String → Bool
  list : String → PyM (List String)
  load : String → String → PyM Val

/-- the schemas that are added for a template, core.py:53-58: the path is expanded when it is tested, and not when it is read -/
def newSchemas (F : SchemaFiles) (paths : List String) : PyM (List Val) :=
  collectM (fun p =>
    if p ≠ "" ∧ F.isDir (F.expand p) = true then
      match F.list p with
      | .error e => .error e
      | .ok fs => collectM (fun f =>
        match F.load p f with
        | .error e => .error e
        | .ok v => .ok [v]) fs
    else .ok []) paths

/-- a dynamic reference begins here or further on -/
def dynRefFrom : List Char → Bool
  | [] => false
  | c :: cs => ("{{resolve:".toList.isPrefixOf (c :: cs) && decide ("}}".toList <:+: (c :: cs).drop 11)) || dynRefFrom cs

/-- `re.match(REGEX_DYN_REF, s)`, helpers.py:77, of a text without line ends -/
def hasDynRef (s : String) : Bool := dynRefFrom s.toList

/-- PSEUDOPARAMS, helpers.py:53-62, followed by UNCONVERTED_SUFFIXES, helpers.py:65 -/
def syntaxWords : List String :=
  ["AWS::AccountId", "AWS::NotificationARNs", "AWS::NoValue", "AWS::Partition", "AWS::Region", "AWS::StackId", "AWS::StackName", "AWS::URLSuffix", "Ref", "Condition"]

/-- what counts as syntax of templates, ResourceSchema.py:25 -/
def hasSyntax (s : String) : Bool :=
  hasDynRef s || syntaxWords.any (fun w => decide (w.toList <:+: s.toList)) || decide ("Fn::".toList <:+: s.toList)

/-- the body of the inner loop, ResourceSchema.py:22-29 -/
def schemaResource (shown : Val → String) (validate : Val → Val → PyM (Option String)) (schema : Val) (nr : Key × List (Key × Val)) : PyM (List (Path × String)) :=
  if hasSyntax (shown ((dlookup (Key.str "Properties") nr.2).getD (.dict []))) then .ok []
  else
    match validate ((dlookup (Key.str "Properties") nr.2).getD (.dict [])) schema with
    | .error e => .error e
    | .ok none => .ok []
    | .ok (some m) => .ok [([.str "Resources", nr.1, .str "Properties"], m)]

/-- the loop over the schemas, ResourceSchema.py:20-29; `schema['typeName']` is expected to be a text -/
def schemaStep (shown : Val → String) (validate : Val → Val → PyM (Option String)) (t schema : Val) : PyM (List (Path × String)) :=
  match schema with
  | .dict kvs =>
    match dlookup (Key.str "typeName") kvs with
    | none => .error (.keyError "typeName")
    | some (.str ty) => collectM (schemaResource shown validate schema) (resourcesOfType [ty] t)
    | some _ => .ok []
  | _ => .error (.typeError "indices must be integers")

/-- `match`, ResourceSchema.py:18-30 -/
def registryRule (shown : Val → String) (validate : Val → Val → PyM (Option String)) (schemas : List Val) (t : Val) : PyM (List (Path × String)) :=
  collectM (schemaStep shown validate t) schemas

/-- the findings of E3000 for one template after the other, core.py:43-60: `schemas` are those loaded so far -/
def registryRuns (F : SchemaFiles) (paths : List String) (shown : Val → String) (validate : Val → Val → PyM (Option String)) :
    List Val → List Val → PyM (List (PyM (List (Path × String))))
  | _, [] => .ok []
  | schemas, t :: ts =>
    match newSchemas F paths with
    | .error e => .error e
    | .ok new =>
      match registryRuns F paths shown validate (schemas ++ new) ts with
      | .error e => .error e
      | .ok rs => .ok (registryRule shown validate (schemas ++ new) t :: rs)

end CfnLint
