import Verif.Model.StateMachine
import Verif.Spec.PrimType
/-
What the definitions of state machines are to be, for rule E2532.
-/
namespace CfnLint.Spec

/-- what is said of the types of states: the type, the keys its states can have, the keys they must have -/
abbrev StateTable := List (String × List String × List String)

/-- the table of the rule -/
def ruleStates : StateTable :=
  [("Pass", ["Next", "End", "Type", "Comment", "InputPath", "OutputPath", "Result", "ResultPath", "Parameters"], ["Type"]),
   ("Task", ["Next", "End", "Type", "Comment", "InputPath", "OutputPath", "Resource", "ResultPath", "Retry", "Catch", "TimeoutSeconds", "Parameters",
     "HeartbeatSeconds"], ["Type", "Resource"]),
   ("Map", ["Next", "End", "Type", "Comment", "InputPath", "OutputPath", "MaxConcurrency", "Iterator", "ItemsPath", "ResultPath", "Retry", "Catch",
     "Parameters"], ["Type"]),
   ("Choice", ["Next", "End", "Type", "Comment", "InputPath", "OutputPath", "Choices", "Default"], ["Type", "Choices"]),
   ("Wait", ["Next", "End", "Type", "Comment", "InputPath", "OutputPath", "Seconds", "Timestamp", "SecondsPath", "TimestampPath"], ["Type"]),
   ("Succeed", ["Next", "End", "Type", "Comment", "InputPath", "OutputPath"], ["Type"]),
   ("Fail", ["Next", "End", "Type", "Comment", "InputPath", "OutputPath", "Cause", "Error"], ["Type"]),
   ("Parallel", ["Next", "End", "Type", "Comment", "InputPath", "OutputPath", "Branches", "ResultPath", "Retry", "Catch"], ["Type", "Branches"])]

/-- the table of the language of states: choices and the two ends have no next state, a state that fails has no input or output, a state that
maps must say what it does with an item, and parallel states take parameters -/
def languageStates : StateTable :=
  [("Pass", ["Next", "End", "Type", "Comment", "InputPath", "OutputPath", "Result", "ResultPath", "Parameters"], ["Type"]),
   ("Task", ["Next", "End", "Type", "Comment", "InputPath", "OutputPath", "Resource", "ResultPath", "Retry", "Catch", "TimeoutSeconds", "Parameters",
     "HeartbeatSeconds"], ["Type", "Resource"]),
   ("Map", ["Next", "End", "Type", "Comment", "InputPath", "OutputPath", "MaxConcurrency", "Iterator", "ItemsPath", "ResultPath", "Retry", "Catch",
     "Parameters"], ["Type", "Iterator"]),
   ("Choice", ["Type", "Comment", "InputPath", "OutputPath", "Choices", "Default"], ["Type", "Choices"]),
   ("Wait", ["Next", "End", "Type", "Comment", "InputPath", "OutputPath", "Seconds", "Timestamp", "SecondsPath", "TimestampPath"], ["Type"]),
   ("Succeed", ["Type", "Comment", "InputPath", "OutputPath"], ["Type"]),
   ("Fail", ["Type", "Comment", "Cause", "Error"], ["Type"]),
   ("Parallel", ["Next", "End", "Type", "Comment", "InputPath", "OutputPath", "Branches", "ResultPath", "Retry", "Catch", "Parameters"],
     ["Type", "Branches"])]

/-- the faults of a state -/
inductive StateFault (T : StateTable) (name : Key) (st : List (Key × Val)) : SmFault → Prop
  | noType : (∀ v, (Key.str "Type", v) ∉ st) → StateFault T name st (.stateMissing name "Type")
  | type {v} : (.str "Type", v) ∈ st → (∀ ty row, (ty, row) ∈ T → v ≠ .str ty) → StateFault T name st (.stateType name)
  | key {ty may must k v} : (.str "Type", .str ty) ∈ st → (ty, may, must) ∈ T → (k, v) ∈ st → (∀ s ∈ may, k ≠ .str s) →
      StateFault T name st (.stateKey name k)
  | missing {ty may must r} : (.str "Type", .str ty) ∈ st → (ty, may, must) ∈ T → r ∈ must → (∀ v, (Key.str r, v) ∉ st) →
      StateFault T name st (.stateMissing name r)

/-- the faults of a definition -/
inductive MachineFault (T : StateTable) (d : List (Key × Val)) : SmFault → Prop
  | key {k v} : (k, v) ∈ d → (∀ s ∈ ["Comment", "StartAt", "TimeoutSeconds", "Version", "States"], k ≠ .str s) → MachineFault T d (.topKey k)
  | missing {r} : r ∈ ["StartAt", "States"] → (∀ v, (Key.str r, v) ∉ d) → MachineFault T d (.topMissing r)
  | state {ss name st f} : (.str "States", .dict ss) ∈ d → (name, .dict st) ∈ ss → StateFault T name st f → MachineFault T d f

/-- a document of the form of a definition: an object whose states are objects, with types that are not lists or objects -/
def MachineShape (d : Val) : Prop :=
  d.WF ∧ ∃ kvs, d = .dict kvs ∧ ∀ v, (Key.str "States", v) ∈ kvs → ∃ ss, v = .dict ss ∧
    ∀ name u, (name, u) ∈ ss → ∃ st, u = .dict st ∧ ∀ ty, (Key.str "Type", ty) ∈ st → (∀ xs, ty ≠ .list xs) ∧ ∀ xs, ty ≠ .dict xs

/-- the text of an `Fn::Sub` -/
inductive TextOfSub : Val → Val → Prop
  | plain {s} : TextOfSub (.str s) (.str s)
  | pair {x xs} : TextOfSub (.list (x :: xs)) x

/-- the faults of a value of the definition, with their places: texts that are no definitions, and definitions with faults. Nothing is asked of the text
of an `Fn::Sub` that is no JSON. -/
inductive DefinitionFault (loads : Val → Option Val) (T : StateTable) : Val → Path → SmFault → Prop
  | noJson {u} : Known u → loads u = none → DefinitionFault loads T u [] .noJson
  | value {u d f} : Known u → loads u = some (.dict d) → MachineFault T d f → DefinitionFault loads T u [] f
  | sub {x t d f} : TextOfSub x t → loads t = some (.dict d) → MachineFault T d f → DefinitionFault loads T (.dict [(.str "Fn::Sub", x)]) [.str "Fn::Sub"] f

end CfnLint.Spec
