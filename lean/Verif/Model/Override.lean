import Verif.Model.Specs
import Verif.Model.Core
/-
Model of the file that overrides the specifications: `override_specs` (helpers.py:512-532) and `set_specs` (helpers.py:337-382) for all regions, as `run_cli`
(core.py:43-47) calls it for one template after the other; and of `get_formatter` (core.py:77-94). `sys.exit(1)` is `RunErr.exit 1`. A failure of `set_specs` is a
failure of the whole, as in Model/Specs.
-/
namespace CfnLint

/-- what opening and reading the file gives: a JSON value, an `IOError` with its number, or a `ValueError` -/
inductive OverrideFile where
  | json (v : Val)
  | io (errno : Nat)
  | malformed

/-- the texts of a list -/
def textItems : List Val → PyM (List String)
  | [] => .ok []
  | .str s :: xs =>
    match textItems xs with
    | .error e => .error e
    | .ok l => .ok (s :: l)
  | _ :: _ => .error (.attributeError "replace")

/-- the patterns of a list of the file, helpers.py:361-363 and 371-373; a text is a list of characters -/
def patternsOf (v : Val) : PyM (List String) :=
  if v.truthy then
    match v with
    | .list xs => textItems xs
    | .dict kvs => textItems (kvs.map (fun kv => kv.1.toVal))
    | .str s => .ok (s.toList.map (fun c => String.ofList [c]))
    | _ => .error (.typeError "object is not iterable")
  else .ok []

/-- the loop over the regions, helpers.py:349-382 -/
def setRegions (one : List (Key × Val) → PyM (List (Key × Val))) : List (String × List (Key × Val)) → PyM (List (String × List (Key × Val)))
  | [] => .ok []
  | (r, spec) :: rest =>
    match one spec with
    | .error e => .error e
    | .ok spec' =>
      match setRegions one rest with
      | .error e => .error e
      | .ok rest' => .ok ((r, spec') :: rest')

/-- `set_specs` for what was read, helpers.py:337-382; an empty list or text overrides nothing -/
def setAll (rx : String → Option (String → Bool)) (v : Val) (specs : List (String × List (Key × Val))) : PyM (List (String × List (Key × Val))) :=
  match v with
  | .dict o =>
    match patternsOf ((dlookup (Key.str "ExcludeResourceTypes") o).getD .none) with
    | .error e => .error e
    | .ok excludes =>
      match patternsOf ((dlookup (Key.str "IncludeResourceTypes") o).getD .none) with
      | .error e => .error e
      | .ok includes => setRegions (setSpecs rx includes excludes (ddel (Key.str "IncludeResourceTypes") (ddel (Key.str "ExcludeResourceTypes") o))) specs
  | .list [] => setRegions (setSpecs rx [] [] []) specs
  | .str "" => setRegions (setSpecs rx [] [] []) specs
  | .list (_ :: _) => .error (.attributeError "items")
  | .str _ => .error (.attributeError "items")
  | _ => .error (.typeError "argument is not iterable")

/-- `override_specs`, helpers.py:512-532 -/
def overrideSpecs (rx : String → Option (String → Bool)) (f : OverrideFile) (specs : List (String × List (Key × Val))) : RunM (List (String × List (Key × Val))) :=
  match f with
  | .io n => if n = 2 ∨ n = 21 ∨ n = 13 then .error (.exit 1) else .ok specs
  | .malformed => .error (.exit 1)
  | .json v =>
    match setAll rx v specs with
    | .ok specs' => .ok specs'
    | .error (.valueError _) => .error (.exit 1)
    | .error e => .error (.py e)

/-- the specifications with which each of the templates is checked, core.py:46-47: the file is read again for every template -/
def specsUsed (rx : String → Option (String → Bool)) : List OverrideFile → List (String × List (Key × Val)) → RunM (List (List (String × List (Key × Val))))
  | [], _ => .ok []
  | f :: fs, specs =>
    match overrideSpecs rx f specs with
    | .error e => .error e
    | .ok specs' =>
      match specsUsed rx fs specs' with
      | .error e => .error e
      | .ok rest => .ok (specs' :: rest)

/-- the formatters -/
inductive FormatterKind where
  | plain | quiet | parseable | json | junit | pretty
deriving DecidableEq, Repr

/-- `get_formatter`, core.py:77-94; `none` is the empty dictionary, which cannot print -/
def getFormatter (fmt : Val) : Option FormatterKind :=
  if fmt.truthy then
    if fmt = .str "quiet" then some .quiet
    else if fmt = .str "parseable" then some .parseable
    else if fmt = .str "json" then some .json
    else if fmt = .str "junit" then some .junit
    else if fmt = .str "pretty" then some .pretty
    else none
  else some .plain

end CfnLint
