import Verif.Spec.Config
/-
What the configuration files mean: which names and values a file may hold, and which file is used.
Nothing here depends on the model of the loader.
-/
namespace CfnLint.Spec

/-- a list of strings -/
def StringList (v : Val) : Prop := ∃ l : List String, v = .list (l.map .str)

/-- a name on one line, perhaps with the newline that ends it -/
def SingleLine (n : String) : Prop := ∃ a : List Char, '\n' ∉ a ∧ (n.toList = a ∨ n.toList = a ++ ['\n'])

/-- a string, a whole number or a truth value -/
def Simple (v : Val) : Prop :=
  (∃ s, v = .str s) ∨ (∃ i, v = .int i) ∨ (∃ b, v = .bool b) ∨
  ∃ r : String, v = .flt r ∧ ((∃ a, r.toList = a ++ ['.', '0']) ∨ '+' ∈ r.toList)

/-- the settings of one rule: names with simple values -/
def RuleSettings (v : Val) : Prop :=
  ∃ kvs, v = .dict kvs ∧ ∀ kv ∈ kvs, ∃ n, kv.1 = .str n ∧ (SingleLine n → Simple kv.2)

/-- rule ids with settings -/
def RulesSettings (v : Val) : Prop :=
  ∃ kvs, v = .dict kvs ∧ ∀ kv ∈ kvs, ∃ n, kv.1 = .str n ∧ SingleLine n ∧ RuleSettings kv.2

/-- the options a configuration file may hold, with their types -/
inductive FileOption : String → Val → Prop
  | names {n v} : n ∈ ["append_rules", "ignore_checks", "include_checks", "mandatory_checks", "regions",
      "templates", "ignore_templates", "registry_schemas"] → StringList v → FileOption n v
  | path {n s} : n = "override_spec" ∨ n = "output_file" → FileOption n (.str s)
  | rules {v} : RulesSettings v → FileOption "configure_rules" v

/-- a configuration file the program accepts -/
def FileConfig (v : Val) : Prop :=
  ∃ kvs, v = .dict kvs ∧ ∀ kv ∈ kvs, ∃ n, kv.1 = .str n ∧ FileOption n kv.2

/-- `p` is the first of the names that is there -/
def FirstOf (there : String → Prop) (names : List String) (p : String) : Prop :=
  ∃ pre post, names = pre ++ p :: post ∧ there p ∧ ∀ q ∈ pre, ¬ there q

/-- what a file contributes: nothing when it is missing or empty, else what it holds -/
def FileHolds (file : Option (PyM Val)) (v : Val) : Prop :=
  (file = none ∧ v = .dict []) ∨
  ∃ w, file = some (.ok w) ∧ (w.truthy = true ∧ v = w ∨ w.truthy = false ∧ v = .dict [])

end CfnLint.Spec
