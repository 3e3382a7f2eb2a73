import Verif.Model.Rules
import Verif.Spec.Rules
/-
Specification of the rule collection: what a history of operations means.
Uses from the model only the data types (`RuleObj`, `CfgDef`, `Val`), not its functions.
-/
namespace CfnLint.Spec

/-- A well-typed configuration: id prefixes are strings. -/
structure Conf where
  ignore : List String := []
  incl : List String := []
  mandatory : List String := []
  includeExperimental : Bool := false
  configureRules : List (String × Val) := []

/-- Operations of a user of the collection, rule objects being named by a number. -/
inductive Op where
  | register (i : Nat)
  | extend (is : List Nat)
  | configure (c : Conf)

/-- All registrations of a history, in order. -/
def registered : List Op → List Nat
  | [] => []
  | .register i :: ops => i :: registered ops
  | .extend is :: ops => is ++ registered ops
  | .configure _ :: ops => registered ops

/-- The configuration in force after a history that started with `c`. -/
def lastConf (c : Conf) : List Op → Conf
  | [] => c
  | .configure c' :: ops => lastConf c' ops
  | _ :: ops => lastConf c ops

/-- Rule object number `i` is enabled under `c`; `W` and `E` are always included. -/
def EnabledAt (objs : List RuleObj) (c : Conf) (i : Nat) : Prop :=
  ∃ r, objs[i]? = some r ∧
    Enabled r.info.id r.info.experimental c.includeExperimental c.ignore (c.incl ++ ["W", "E"])
      c.mandatory

end CfnLint.Spec

namespace CfnLint
open Spec

/-- Embedding of specification configurations into the model's argument type. -/
def Spec.Conf.toCfg (c : Conf) : Cfg :=
  { ignore := c.ignore.map .str, incl := c.incl.map .str, mandatory := c.mandatory.map .str,
    includeExperimental := c.includeExperimental, configureRules := c.configureRules }

def Spec.Op.toOp : Op → CollOp
  | .register i => .register i
  | .extend is => .extend is
  | .configure c => .configure c.toCfg

end CfnLint

namespace CfnLint.Spec

/-- What the textual/typed option value `v` means for an option of the given type: booleans are true
exactly for `True` or a string spelling "true" in any case; strings are rendered; integers are the
number denoted.  `none` means the value is not meaningful for the option. -/
def optionMeaning (t : CfgType) (v : Val) : Option Val :=
  match t, v with
  | .boolean, .bool b => some (.bool b)
  | .boolean, .str s => some (.bool (decide (lower s = "true")))
  | .boolean, _ => some (.bool false)
  | .string, v => some (.str (pyStr v))
  | .integer, .int i => some (.int i)
  | .integer, .bool true => some (.int 1)
  | .integer, .bool false => some (.int 0)
  | .integer, .str s => (pyIntStr s).map .int
  | .integer, _ => none
  | .other, _ => none

/-- The value an option must have when the user supplied `opts` for the rule. -/
def expectedOption (defs : List (String × CfgDef)) (opts : List (Key × Val)) (k : String) :
    Option Val :=
  match dlookup k defs with
  | none => none
  | some d =>
    match dlookup (Key.str k) opts with
    | none => some d.default
    | some v => if d.type = .other then some d.default else optionMeaning d.type v

end CfnLint.Spec
