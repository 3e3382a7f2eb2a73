import Verif.Model.Config
import Verif.Model.Core
/-
Model of how the rules are found: `create_rules`, `import_filename` and `load_plugins` (helpers.py:420-489), `create_from_module` and
`create_from_directory` (rules/__init__.py:410-420) and the loop of `get_rules` (core.py:97-109). What the source files contain is a parameter: `run path`
executes the file at a path and gives the attributes of the module. Only Python 3.5 and later, on a file system that tells capitals from small letters; links are
not followed and so are no folders.
-/
namespace CfnLint

/-- what loading rules can raise: the kinds that `get_rules` catches, and all others -/
inductive PluginErr where
  | os
  | imp
  | py (e : PyErr)
deriving DecidableEq, Repr

/-- a class of a module: module and name of its ancestors without itself (`inspect.getmro(clazz)[1:]`), and what `clazz()` does -/
structure PyClass (R : Type) where
  ancestors : List (String × String)
  create : Except PluginErr R

/-- the attributes of a module; `none` for those that are no classes -/
abbrev Members (R : Type) := List (String × Option (PyClass R))

/-- helpers.py:426 -/
def isRuleClass {R : Type} (c : PyClass R) : Bool :=
  c.ancestors.any (fun mn => decide (mn.1 ∈ ["cfnlint", "cfnlint.rules"]) && mn.2 == "CloudFormationLintRule")

/-- the loop of `create_rules`, helpers.py:424-430 -/
def createLoop {R : Type} : Members R → Except PluginErr (List R)
  | [] => .ok []
  | (_, none) :: rest => createLoop rest
  | (_, some c) :: rest =>
    if isRuleClass c then
      match c.create with
      | .error e => .error e
      | .ok r =>
        match createLoop rest with
        | .error e => .error e
        | .ok rs => .ok (r :: rs)
    else createLoop rest

/-- `create_rules`, helpers.py:420-430; `inspect.getmembers` sorts by name -/
def createRules {R : Type} (ms : Members R) : Except PluginErr (List R) :=
  createLoop (ms.mergeSort (fun a b => strLe a.1 b.1))

/-- a folder: the names of its files and its folders; `unreadable` if it cannot be listed -/
inductive Folder where
  | unreadable
  | folder (files : List String) (subs : List (String × Folder))

/-- `fnmatch(name, '[A-Za-z]*.py')`, helpers.py:481 -/
def isPluginFile (name : String) : Bool :=
  match name.toList with
  | c :: cs => (decide ('A' ≤ c ∧ c ≤ 'Z') || decide ('a' ≤ c ∧ c ≤ 'z')) && ".py".toList.isSuffixOf cs
  | [] => false

/-- `filename.replace('.py', '')`, helpers.py:482 -/
def dropPy : List Char → List Char
  | '.' :: 'p' :: 'y' :: cs => dropPy cs
  | c :: cs => c :: dropPy cs
  | [] => []

/-- what follows the last dot, as `FileFinder.find_spec` looks names up -/
def afterLastDot (l : List Char) : List Char := (l.reverse.takeWhile (fun c => decide (c ≠ '.'))).reverse

/-- the folder is a package -/
def isPackage : Folder → Bool
  | .unreadable => false
  | .folder files _ => files.contains "__init__.py"

/-- `FileFinder(root).find_spec(name)` of the standard library: a package, a file, or a folder without code -/
inductive SpecFound where
  | nothing
  | file (path : List String)
  | bare
deriving DecidableEq, Repr

/-- helpers.py:455-458 -/
def findSpec (files : List String) (subs : List (String × Folder)) (root : List String) (name : String) : SpecFound :=
  let tail := String.ofList (afterLastDot name.toList)
  if subs.any (fun s => s.1 == tail && isPackage s.2) then .file (root ++ [tail, "__init__.py"])
  else if files.contains (tail ++ ".py") then .file (root ++ [tail ++ ".py"])
  else if subs.any (fun s => s.1 == tail) then .bare
  else .nothing

/-- one file of `load_plugins`, helpers.py:482-484 with `import_filename`, helpers.py:453-469 -/
def loadFile {R : Type} (run : List String → Except PluginErr (Members R)) (files : List String) (subs : List (String × Folder)) (root : List String) (name : String) :
    Except PluginErr (List R) :=
  match findSpec files subs root (String.ofList (dropPy name.toList)) with
  | .nothing => .ok []
  | .bare => .error (.py (.attributeError "exec_module"))
  | .file p =>
    match run p with
    | .error e => .error e
    | .ok ms => createRules ms

/-- the loop over the files of a folder, helpers.py:481-484 -/
def loadFiles {R : Type} (one : String → Except PluginErr (List R)) : List String → Except PluginErr (List R)
  | [] => .ok []
  | f :: fs =>
    match one f with
    | .error e => .error e
    | .ok a =>
      match loadFiles one fs with
      | .error e => .error e
      | .ok b => .ok (a ++ b)

mutual
/-- `load_plugins`, helpers.py:472-486: `os.walk` gives a folder, then its folders one after the other -/
def loadFolder {R : Type} (run : List String → Except PluginErr (Members R)) (root : List String) : Folder → Except PluginErr (List R)
  | .unreadable => .error .os
  | .folder files subs =>
    match loadFiles (loadFile run files subs root) (files.filter isPluginFile) with
    | .error e => .error e
    | .ok a =>
      match loadFolders run root subs with
      | .error e => .error e
      | .ok b => .ok (a ++ b)
/-- the folders of a folder -/
def loadFolders {R : Type} (run : List String → Except PluginErr (Members R)) (root : List String) : List (String × Folder) → Except PluginErr (List R)
  | [] => .ok []
  | (n, d) :: rest =>
    match loadFolder run (root ++ [n]) d with
    | .error e => .error e
    | .ok a =>
      match loadFolders run root rest with
      | .error e => .error e
      | .ok b => .ok (a ++ b)
end

/-- what a path of `get_rules` stands for, core.py:103-106 -/
inductive RuleSource (R : Type) where
  /-- a folder -/
  | folder (d : Folder)
  /-- anything else is imported by its name -/
  | byName (ms : Except PluginErr (Members R))

/-- `create_from_directory` or `create_from_module`, rules/__init__.py:410-420; a folder is never given by the empty path -/
def fromSource {R : Type} (run : List String → Except PluginErr (Members R)) : RuleSource R → Except PluginErr (List R)
  | .folder d => loadFolder run [] d
  | .byName (.error e) => .error e
  | .byName (.ok ms) => createRules ms

/-- the loop of `get_rules`, core.py:100-109, over the folder of the own rules and the appended ones -/
def gatherRules {R : Type} (load : RuleSource R → Except PluginErr (List R)) : List (RuleSource R) → RunM (List R)
  | [] => .ok []
  | s :: ss =>
    match load s with
    | .error (.py e) => .error (.py e)
    | .error _ => .error (.exit 1)
    | .ok a =>
      match gatherRules load ss with
      | .error e => .error e
      | .ok b => .ok (a ++ b)

end CfnLint
