import Verif.Model.Py
/-
Specifications for configuration handling, independent of the model's functions.
-/
namespace CfnLint.Spec

/-- The first truthy value among the sources, else the default. -/
def firstTruthy (sources : List Val) (dflt : Val) : Val := (sources.find? Val.truthy).getD dflt

/-- The value at a path of dictionary keys. -/
def getPath : Val → List Key → Option Val
  | v, [] => some v
  | .dict kvs, k :: ks =>
    match dlookup k kvs with
    | some v => getPath v ks
    | none => none
  | _, _ :: _ => none

/-- `p` does not touch the path: following it one arrives at a dictionary lacking the next key. -/
inductive Untouched : Val → List Key → Prop
  | missing {kvs k ks} : dlookup k kvs = none → Untouched (.dict kvs) (k :: ks)
  | deeper {kvs k ks v} : dlookup k kvs = some v → Untouched v ks → Untouched (.dict kvs) (k :: ks)

/-- The options a template may set, with the type their value must have. -/
def templateSettable : List (String × (Val → Bool)) :=
  [("ignore_checks", Val.isList), ("regions", Val.isList), ("append_rules", Val.isList),
   ("override_spec", Val.isStr), ("ignore_bad_template", Val.isBool),
   ("include_checks", Val.isList), ("configure_rules", Val.isDict)]

/-- `n` may be set from a template to the value `v`. -/
def settable (n : String) (v : Val) : Bool := templateSettable.any (fun o => o.1 == n && o.2 v)

/-- A text that contains none of the separators of the `-x` syntax. -/
def PlainText (s : String) : Prop := ',' ∉ s.toList ∧ ':' ∉ s.toList ∧ '=' ∉ s.toList

/-- The concrete syntax of one option item. -/
def itemText (i : String × String × String) : String := i.1 ++ ":" ++ i.2.1 ++ "=" ++ i.2.2

/-- The value of option `k` of rule `r` given by a list of items: the last one wins. -/
def itemValue (r k : String) : List (String × String × String) → Option String
  | [] => none
  | i :: rest => (itemValue r k rest).or (if i.1 = r ∧ i.2.1 = k then some i.2.2 else none)

/-- A requested pattern stands for the files it matches, or for itself when it matches nothing. -/
def PatternMeans (glob : String → List String) (pat file : String) : Prop :=
  file ∈ glob pat ∨ (glob pat = [] ∧ file = pat)

end CfnLint.Spec

namespace CfnLint.Spec

/-- The documented table of options: name, settable from the template, settable from a file. -/
def optionTable : List (String × Bool × Bool) :=
  [("ignore_checks", true, true), ("include_checks", true, true), ("mandatory_checks", false, true),
   ("include_experimental", true, true), ("regions", true, true), ("ignore_bad_template", true, true),
   ("configure_rules", true, true), ("append_rules", false, true), ("override_spec", false, true),
   ("debug", false, false), ("format", false, true)]

/-- The documented effective value: the first truthy one of the command line, the template (when the
option may be set there) and the configuration file (likewise), else the command-line default. -/
def effective (cli : String → Val) (template file : List (String × Val)) (o : String × Bool × Bool) :
    Val :=
  firstTruthy
    ([cli o.1] ++ (if o.2.1 then (dlookup o.1 template).toList else []) ++
      (if o.2.2 then (dlookup o.1 file).toList else [])) (cli o.1)

end CfnLint.Spec
