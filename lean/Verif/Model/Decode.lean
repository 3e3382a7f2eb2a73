import Verif.Model.Yaml
import Verif.Model.Json
import Verif.Model.Rules
/-
Model of `decode` (src/cfnlint/decode/__init__.py:21-128) with the file access of `cfn_yaml.load`
(cfn_yaml.py:197-211) and `cfn_json.load` (cfn_json.py:341-355).

PyYAML's scanner, parser and composer are the parameter `compose`; the scalar constructors are the parameter `ctor`;
what the two reads of the file give is a parameter too. `fileinput` keeps a global reader: it refuses a new `input()`
while the previous one is in the middle of a file.
-/
namespace CfnLint

/-- What reading the file gives. -/
inductive ReadOutcome where
  | text (s : List Char)
  | osError (errno : Int)
  | unicodeError
deriving DecidableEq, Repr

/-- What `cfn_yaml.load` can raise, by the `except` clauses of `decode`. Lines and columns are those of the
`problem_mark`. -/
inductive LoadErr where
  | io (errno : Int)
  | unicode
  | cfnParse (line col keyLen : Int) (msg : String)
  | parser (problem : String) (line col : Int)
  | scanner (problem : String) (line col : Int)
  | yaml (msg : String)
  | other (e : PyErr)
deriving DecidableEq, Repr

/-- Reading a file (cfn_yaml.py:202-209, cfn_json.py:346-353). `active` says that the global reader of `fileinput` is
in the middle of a file. With a terminal as standard input the file is opened directly. -/
def readFile (isatty : Bool) (active : Bool) (o : ReadOutcome) : Except LoadErr (List Char) × Bool :=
  if isatty then
    match o with
    | .text s => (.ok s, active)
    | .osError n => (.error (.io n), active)
    | .unicodeError => (.error .unicode, active)
  else if active then (.error (.other (.other "RuntimeError: input() already active")), true)
  else
    match o with
    | .text s => (.ok s, false)
    | .osError n => (.error (.io n), false)
    | .unicodeError => (.error .unicode, true)

/-- The libraries and the positions the model does not compute. -/
structure DecodeEnv where
  /-- PyYAML: reader, scanner, parser, composer. -/
  compose : List Char → Except LoadErr (Option YNode)
  /-- PyYAML: scalar constructors. -/
  ctor : String → String → YM Val
  /-- where a construction error is reported: line, column, length of the key -/
  yamlPos : YNode → Int × Int × Int
  /-- Python's `int(text, 16)` -/
  int16 : List Char → Option Int
  /-- line, column and key length of a JSON error -/
  jsonPos : List Char → Int × Int × Int
  /-- code points as a string -/
  textOf : JText → String

mutual
/-- A decoded JSON value as template data. -/
def JVal.toVal (textOf : JText → String) : JVal → Val
  | .null => .none
  | .bool b => .bool b
  | .int i => .int i
  | .flt t => .flt (String.ofList t)
  | .str t => .str (textOf t)
  | .arr vs => .list (JVal.toVals textOf vs)
  | .obj kvs => .dict (JVal.toPairs textOf kvs)
def JVal.toVals (textOf : JText → String) : List JVal → List Val
  | [] => []
  | v :: vs => v.toVal textOf :: JVal.toVals textOf vs
def JVal.toPairs (textOf : JText → String) : List (JText × JVal) → List (Key × Val)
  | [] => []
  | (k, v) :: kvs => (.str (textOf k), v.toVal textOf) :: JVal.toPairs textOf kvs
end

/-- `cfn_yaml.loads` (cfn_yaml.py:183-194) -/
def yamlLoad (env : DecodeEnv) (s : List Char) : Except LoadErr Val :=
  match env.compose s with
  | .error e => .error e
  | .ok none => .ok (.dict [])
  | .ok (some n) =>
    match yconstruct env.ctor n with
    | .ok v => .ok v
    | .error (.parse m) => .error (.cfnParse (env.yamlPos n).1 (env.yamlPos n).2.1 (env.yamlPos n).2.2 m)
    | .error (.ctor m) => .error (.yaml m)
    | .error (.py e) => .error (.other e)

/-- `create_match_file_error` (decode/__init__.py:110-114) -/
def fileMatch (filename msg : String) : Match := ⟨1, 1, 1, 2, filename, parseErrorRule, msg⟩

/-- `create_match_yaml_parser_error` (decode/__init__.py:100-107) -/
def yamlMatch (problem : String) (line col : Int) (filename : String) : Match :=
  ⟨line + 1, col + 1, line + 1, col + 1 + 1, filename, parseErrorRule, problem⟩

/-- `create_match_json_parser_error` (decode/__init__.py:117-128) in Python 3 -/
def jsonMatch (pos : Int × Int × Int) (msg filename : String) : Match :=
  ⟨pos.1, pos.2.1, pos.1, pos.2.1 + 1, filename, parseErrorRule, msg⟩

/-- `json_err.match` (cfn_json.py:70-71) after `json_err.match.filename = filename` -/
def cfnJsonMatch (pos : Int × Int × Int) (msg filename : String) : Match :=
  ⟨pos.1, pos.2.1 + 1, pos.1, pos.2.1 + 1 + pos.2.2, filename, parseErrorRule, msg⟩

/-- `err.match` of a `CfnParseError` (cfn_yaml.py:49-51): the file name is the one given to the loader. -/
def cfnYamlMatch (line col keyLen : Int) (msg filename : String) : Match :=
  ⟨line + 1, col + 1, line + 1, col + 1 + keyLen, filename, parseErrorRule, msg⟩

/-- decode/__init__.py:93-97 -/
def finishDecode (filename : String) (template : Val) (ms : List Match) : Val × List Match :=
  if template.isDict = false ∧ ms = [] then
    (template, [⟨1, 1, 1, 1, filename, parseErrorRule, "Template needs to be an object."⟩])
  else (template, ms)

/-- The scanner problems after which JSON is tried (decode/__init__.py:59-62). -/
def triesJson (problem : String) : Bool :=
  problem == "found character '\\t' that cannot start any token" ||
  problem == "found unknown escape character" ||
  startsWith problem "found unknown escape character"

/-- `decode(filename)` (decode/__init__.py:21-97): the template and the findings, or an exception; and the state of
`fileinput`. `o1` and `o2` are the outcomes of reading the file for YAML and again for JSON. -/
def decodeFile (env : DecodeEnv) (isatty active : Bool) (filename : String) (o1 o2 : ReadOutcome) :
    PyM (Val × List Match) × Bool :=
  let (r1, active1) := readFile isatty active o1
  match r1.bind (yamlLoad env) with
  | .ok v => (.ok (finishDecode filename v []), active1)
  | .error (.io n) =>
    if n = 2 then (.ok (.none, [fileMatch filename ("Template file not found: " ++ filename)]), active1)
    else if n = 21 then
      (.ok (.none, [fileMatch filename ("Template references a directory, not a file: " ++ filename)]), active1)
    else if n = 13 then
      (.ok (.none, [fileMatch filename ("Permission denied when accessing template file: " ++ filename)]), active1)
    else (.ok (finishDecode filename .none []), active1)
  | .error .unicode =>
    (.ok (finishDecode filename .none [fileMatch filename ("Cannot read file contents: " ++ filename)]), active1)
  | .error (.cfnParse l c k m) => (.ok (finishDecode filename .none [cfnYamlMatch l c k m filename]), active1)
  | .error (.parser p l c) => (.ok (finishDecode filename .none [yamlMatch p l c filename]), active1)
  | .error (.scanner p l c) =>
    if triesJson p then
      let (r2, active2) := readFile isatty active1 o2
      match r2 with
      | .error _ =>
        (.ok (.none, [fileMatch filename ("Tried to parse " ++ filename ++ " as JSON but got error")]), active2)
      | .ok s =>
        match jsonLoads env.int16 s with
        | .ok j => (.ok (finishDecode filename (j.toVal env.textOf) []), active2)
        | .error (.cfn m) => (.ok (finishDecode filename .none [cfnJsonMatch (env.jsonPos s) m filename]), active2)
        | .error (.std m) =>
          if m = "Expecting value" then (.ok (finishDecode filename .none [yamlMatch p l c filename]), active2)
          else (.ok (finishDecode filename .none [jsonMatch (env.jsonPos s) m filename]), active2)
        | .error _ =>
          (.ok (.none, [fileMatch filename ("Tried to parse " ++ filename ++ " as JSON but got error")]), active2)
    else (.ok (finishDecode filename .none [yamlMatch p l c filename]), active1)
  | .error (.yaml m) => (.ok (finishDecode filename .none [fileMatch filename m]), active1)
  | .error (.other e) => (.error e, active1)

end CfnLint
