import Verif.Model.Scenario
import Verif.Model.Limits
import Verif.Model.Graph
/-
Model of rule E2540 (rules/resources/codepipeline/CodepipelineStages.py). A finding is its path, which of the messages it carries and the scenario.
Categories that are not texts are told apart by their values (1 and true are not the same).
-/
namespace CfnLint

/-- the messages, CodepipelineStages.py:32, 49, 54, 74, 79 and 92 -/
inductive StageMsg where
  | few (n : Nat)
  | noSource
  | onlySource
  | source
  | allSource
  | name (s : String)
deriving DecidableEq, Repr

structure StageReport where
  msg : StageMsg
  path : Path
  scenario : Option Scenario
deriving DecidableEq

/-- `check_stage_count`, CodepipelineStages.py:27-36 -/
def stageCount (xs : List Val) (path : Path) (sc : Option Scenario) : PyM (List StageReport) :=
  .ok (if xs.length < 2 then [⟨.few xs.length, path, sc⟩] else [])

/-- `action.get('ActionTypeId').get('Category')` -/
def categoryOf (a : Val) : PyM Val :=
  match a.getD "ActionTypeId" .none with
  | .error e => .error e
  | .ok ty => ty.getD "Category" .none

/-- `stage['Actions']` -/
def actionsAt (stage : Val) : PyM Val :=
  match stage with
  | .dict kvs =>
    match dlookup (Key.str "Actions") kvs with
    | some v => .ok v
    | none => .error (.keyError "Actions")
  | _ => .error (.typeError "indices must be integers")

/-- the categories of the actions, in order -/
def categoriesOf : List Val → PyM (List Val)
  | [] => .ok []
  | a :: rest =>
    match categoryOf a with
    | .error e => .error e
    | .ok c =>
      match categoriesOf rest with
      | .error e => .error e
      | .ok cs => .ok (c :: cs)

/-- whether a set can have the value as an element -/
def canHash : Val → Bool
  | .list _ => false
  | .dict _ => false
  | _ => true

/-- `check_first_stage`, CodepipelineStages.py:38-58 -/
def stageFirst (xs : List Val) (path : Path) (sc : Option Scenario) : PyM (List StageReport) :=
  match xs with
  | [] => .ok []
  | x :: _ =>
    match actionsAt x with
    | .error e => .error e
    | .ok v =>
      match iterOf v with
      | .error e => .error e
      | .ok as =>
        match categoriesOf as with
        | .error e => .error e
        | .ok cs =>
          if cs.all canHash = false then .error (.typeError "unhashable type")
          else .ok ((if cs ≠ [] ∧ Val.str "Source" ∉ cs then [⟨.noSource, path ++ [.int 0, .str "Name"], sc⟩] else []) ++
            (if cs.eraseDups.length ≠ 1 then [⟨.onlySource, path ++ [.int 0, .str "Name"], sc⟩] else []))

/-- the inner loop of `check_source_actions`, CodepipelineStages.py:70-76: the findings and the categories -/
def sourceActions (path : Path) (sc : Option Scenario) (i : Nat) : Nat → List Val → PyM (List StageReport × List Val)
  | _, [] => .ok ([], [])
  | j, a :: rest =>
    match categoryOf a with
    | .error e => .error e
    | .ok c =>
      if canHash c = false then .error (.typeError "unhashable type")
      else
        match sourceActions path sc i (j + 1) rest with
        | .error e => .error e
        | .ok (l, cs) =>
          .ok ((if i > 0 ∧ c = .str "Source" then [⟨.source, path ++ [.int i, .str "Actions", .int j], sc⟩] else []) ++ l, c :: cs)

/-- the outer loop of `check_source_actions`, CodepipelineStages.py:69-76 -/
def sourceStages (path : Path) (sc : Option Scenario) : Nat → List Val → PyM (List StageReport × List Val)
  | _, [] => .ok ([], [])
  | i, x :: rest =>
    match x.getD "Actions" (.list []) with
    | .error e => .error e
    | .ok v =>
      match iterOf v with
      | .error e => .error e
      | .ok as =>
        match sourceActions path sc i 0 as with
        | .error e => .error e
        | .ok (l, cs) =>
          match sourceStages path sc (i + 1) rest with
          | .error e => .error e
          | .ok (l', cs') => .ok (l ++ l', cs ++ cs')

/-- `check_source_actions`, CodepipelineStages.py:60-82 -/
def stageSources (xs : List Val) (path : Path) (sc : Option Scenario) : PyM (List StageReport) :=
  match xs with
  | [] => .ok []
  | xs =>
    match sourceStages path sc 0 xs with
    | .error e => .error e
    | .ok (l, cs) => .ok (l ++ (if cs.all (fun c => decide (c = .str "Source")) then [⟨.allSource, path, sc⟩] else []))

/-- `check_names_unique`, CodepipelineStages.py:84-100; `seen` are the names before -/
def stageNames (path : Path) (sc : Option Scenario) : Nat → List String → List Val → PyM (List StageReport)
  | _, _, [] => .ok []
  | i, seen, x :: rest =>
    match x.getD "Name" .none with
    | .error e => .error e
    | .ok (.str n) =>
      match stageNames path sc (i + 1) (n :: seen) rest with
      | .error e => .error e
      | .ok l => .ok ((if n ∈ seen then [⟨.name n, path ++ [.int i, .str "Name"], sc⟩] else []) ++ l)
    | .ok _ => stageNames path sc (i + 1) seen rest

/-- `except AttributeError`; the error of annotated values is one -/
def PyErr.isAttribute : PyErr → Bool
  | .attributeError _ => true
  | .templateAttributeError _ => true
  | _ => false

/-- `matches.extend(...)` one after the other inside `try`, CodepipelineStages.py:120-135: an AttributeError ends it -/
def extendStages : List (PyM (List StageReport)) → PyM (List StageReport)
  | [] => .ok []
  | .error e :: _ => if e.isAttribute then .ok [] else .error e
  | .ok l :: rest =>
    match extendStages rest with
    | .error e => .error e
    | .ok l' => .ok (l ++ l')

/-- the checks of one list of stages, CodepipelineStages.py:120-135 -/
def stagesCheck (xs : List Val) (path : Path) (sc : Option Scenario) : PyM (List StageReport) :=
  extendStages [stageCount xs path sc, stageFirst xs path sc, stageSources xs path sc, stageNames path sc 0 [] xs]

/-- the body of the loop over the pipelines, CodepipelineStages.py:108-135; `path` ends with `Stages`, and `scenarios` is the result of
`get_condition_scenarios_below_path(path)` -/
def stagesOf (scenarios : List Scenario) (stages : Val) (path : Path) : PyM (List StageReport) :=
  match objectsDeep scenarios stages with
  | .error e => .error e
  | .ok sets => collectM (fun s : Option Scenario × Val =>
      match s.2 with
      | .list xs => stagesCheck xs path s.1
      | _ => .ok []) sets

end CfnLint
