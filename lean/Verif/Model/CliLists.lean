import Verif.Model.Config
/-
Model of the list options of the command line: `comma_separated_arg` (config.py:231-233) and
`ExtendAction` (config.py:307-318) of `CliArgs.create_parser`.

Simplification: argparse itself is not modelled. An option occurs some number of times, each time with one
or more arguments (`nargs='+'`); argparse converts every argument with `type` and calls the action once for
each occurrence. Before that it stores the default of the option, the very object, in the namespace.
-/
namespace CfnLint

/-- a converted argument: a list with `type=comma_separated_arg`, else the string itself -/
inductive ArgValue where
  | one (s : String)
  | many (l : List String)
deriving DecidableEq, Repr

/-- `comma_separated_arg`, config.py:231-233 -/
def commaSeparated (s : String) : List String := (splitOn ',' s.toList).map String.ofList

/-- the conversion of an argument: `type=comma_separated_arg` or none -/
def convertArg (split : Bool) (s : String) : ArgValue :=
  if split then .many (commaSeparated s) else .one s

/-- the loop of `ExtendAction.__call__`, config.py:313-317 -/
def extendItems (items : List String) : List ArgValue → List String
  | [] => items
  | .many l :: vs => extendItems (items ++ l) vs
  | .one s :: vs => extendItems (items ++ [s]) vs

/-- `ExtendAction.__call__`, config.py:310-318 -/
def extendAction (items : Option (List String)) (values : List ArgValue) : List String :=
  extendItems (items.getD []) values

/-- all occurrences of an option, in turn -/
def extendOccs (split : Bool) (items : Option (List String)) : List (List String) → Option (List String)
  | [] => items
  | args :: occs => extendOccs split (some (extendAction items (args.map (convertArg split)))) occs

/-- A list option of a parser (config.py:335-402): its default and whether arguments are split. -/
structure ListOption where
  dflt : Option (List String)
  split : Bool
deriving DecidableEq, Repr

/-- Parsing with a parser: the value of the option, and the option as it is afterwards. A default that is
a list is extended in place; `None` is replaced by a new list. -/
def ListOption.parse (o : ListOption) (occs : List (List String)) : Option (List String) × ListOption :=
  let v := extendOccs o.split o.dflt occs
  (v, { o with dflt := if o.dflt.isSome then v else none })

/-- The options of the program: name in the namespace, default and conversion (config.py:335-402). -/
def listOptionOf : String → Option ListOption
  | "template_alt" => some ⟨some [], false⟩
  | "ignore_templates" => some ⟨some [], false⟩
  | "regions" => some ⟨some [], true⟩
  | "append_rules" => some ⟨some [], true⟩
  | "ignore_checks" => some ⟨some [], true⟩
  | "include_checks" => some ⟨some [], true⟩
  | "mandatory_checks" => some ⟨some [], true⟩
  | "registry_schemas" => some ⟨none, true⟩
  | _ => none

end CfnLint
