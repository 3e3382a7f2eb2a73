import Verif.Model.Config
/-
Model of the configuration files: `ConfigFileArgs` of `src/cfnlint/config.py` lines 44-228 and the
schema `src/cfnlint/data/CfnLintCli/config/schema.json` the files are validated against.

Simplifications: a path is a string, and a name that does not begin with `/` is looked up in the current
directory. What `cfn_yaml.load` makes of a file is part of the machine (the decoder has its own model).
`jsonschema.validate` is modelled for this one schema (draft 7): its verdict, not its message. A
caller's own `schema` argument is not modelled (the program never passes one).
-/
namespace CfnLint

/-- The file system as the program sees it: the two directories, and for every path of a regular file
what `cfn_yaml.load` returns or raises (`none`: no regular file there). -/
structure Machine where
  home : String
  cwd : String
  files : String → Option (PyM Val)
  /-- the current directory is not a regular file -/
  cwdDir : files cwd = none
  /-- both directories are absolute paths -/
  homeAbs : startsWith home "/" = true
  cwdAbs : startsWith cwd "/" = true

/-- `Path(d).joinpath(n)` for a plain name -/
def joinPath (d n : String) : String := if endsWith d "/" then d ++ n else d ++ "/" ++ n

/-- the path the operating system looks up; `Path('')` is the current directory -/
def Machine.resolve (m : Machine) (p : String) : String :=
  if p = "" then m.cwd else if startsWith p "/" then p else joinPath m.cwd p

/-- `_has_file`, config.py:107-118 -/
def Machine.hasFile (m : Machine) (p : String) : Bool := (m.files (m.resolve p)).isSome

/-- `.cfnlintrc`, config.py:83 -/
def rcName : String := ".cfnlintrc"

/-- the candidate for the project, config.py:89-92 -/
def Machine.projectFile (m : Machine) : String :=
  if m.hasFile (rcName ++ ".yaml") then joinPath m.cwd (rcName ++ ".yaml")
  else if m.hasFile (rcName ++ ".yml") then joinPath m.cwd (rcName ++ ".yml")
  else joinPath m.cwd rcName

/-- `_find_config`, config.py:71-105: the files of the user and of the project, `''` when missing -/
def Machine.findConfig (m : Machine) : String × String :=
  let user := joinPath m.home rcName
  let project := m.projectFile
  (if m.hasFile user then user else "", if m.hasFile project then project else "")

/-- `_read_config`, config.py:212-228 -/
def Machine.readConfig (m : Machine) (p : String) : PyM Val :=
  match m.files (m.resolve p) with
  | none => .ok (.dict [])
  | some (.error e) => .error e
  | some (.ok v) => if v.truthy then .ok v else .ok (.dict [])

/-! ### The schema -/

/-- `"type": "string"` -/
def isStrVal : Val → Bool
  | .str _ => true
  | _ => false

/-- `"type": "array"` with string items (schema.json: `append_rules`, `ignore_checks`, ...) -/
def isStrings : Val → Bool
  | .list xs => xs.all isStrVal
  | _ => false

/-- `re.search('^.*$', s)`: no newline but perhaps a last one -/
def dotStarLine (s : String) : Bool :=
  let rest := s.toList.dropWhile (fun c => c != '\n')
  rest == [] || rest == ['\n']

/-- a float that is a whole number, by its `repr` -/
def fltWhole (r : String) : Bool := endsWith r ".0" || r.toList.contains '+'

/-- the `anyOf` of string, integer and boolean below `configure_rules` -/
def isScalar : Val → Bool
  | .str _ => true
  | .int _ => true
  | .bool _ => true
  | .flt r => fltWhole r
  | _ => false

/-- the schema of one rule below `configure_rules`; a key that is not a string makes `re.search` raise -/
def okRule : Val → Bool
  | .dict kvs => kvs.all fun kv => match kv.1 with
    | .str s => !dotStarLine s || isScalar kv.2
    | .int _ => false
  | _ => false

/-- the schema of `configure_rules`, with `additionalProperties: false` -/
def okRules : Val → Bool
  | .dict kvs => kvs.all fun kv => match kv.1 with
    | .str s => dotStarLine s && okRule kv.2
    | .int _ => false
  | _ => false

/-- the options of the schema that are lists of strings -/
def listOptions : List String :=
  ["append_rules", "ignore_checks", "include_checks", "mandatory_checks", "regions", "templates",
   "ignore_templates", "registry_schemas"]

/-- the options of the schema that are strings -/
def pathOptions : List String := ["override_spec", "output_file"]

/-- the schema of one option; any other name is refused (`additionalProperties: false`) -/
def okOption (n : String) (v : Val) : Bool :=
  if n ∈ listOptions then isStrings v
  else if n ∈ pathOptions then isStrVal v
  else if n = "configure_rules" then okRules v
  else false

/-- whether schema.json accepts a value -/
def okConfig : Val → Bool
  | .dict kvs => kvs.all fun kv => match kv.1 with
    | .str s => okOption s kv.2
    | .int _ => false
  | _ => false

/-- `validate_config`, config.py:153-171 -/
def validateConfig (v : Val) : PyM Unit :=
  if okConfig v then .ok () else .error (.other "ValidationError")

/-! ### Loading -/

/-- `load` without a custom file, config.py:131-151 -/
def Machine.loadFound (m : Machine) : PyM Val := do
  let user ← m.readConfig m.findConfig.1
  validateConfig user
  let project ← m.readConfig m.findConfig.2
  validateConfig project
  return mergeVal user project

/-- `load`, config.py:120-151, with the files `__init__` (config.py:54-69) has found: the custom file
when one is named, else the files of the user and of the project. -/
def Machine.loadConfig (m : Machine) (custom : Option String) : PyM Val :=
  match custom with
  | some c =>
    if c ≠ "" then do
      let v ← m.readConfig c
      validateConfig v
      return v
    else m.loadFound
  | none => m.loadFound

/-- the named entries of a dictionary, what `file_args.get(name)` can find -/
def namedArgs : Val → List (String × Val)
  | .dict kvs => kvs.filterMap fun kv => match kv.1 with
    | .str s => some (s, kv.2)
    | .int _ => none
  | _ => []

/-- the file named with `--config-file`, config.py:482 -/
def customFile (cli : String → Val) : Option String :=
  match cli "config_file" with
  | .str s => some s
  | _ => none

/-- `ConfigMixIn.__init__`, config.py:478-484: the sources once the configuration files are read. The
template arguments are set later. -/
def Machine.sources (m : Machine) (cli : String → Val) : PyM Sources := do
  let v ← m.loadConfig (customFile cli)
  return { cli := cli, file := namedArgs v }

end CfnLint
