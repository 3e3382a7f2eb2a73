import Verif.Model.Main
/-
Model of `update_documentation` (maintenance.py:87-135), which rewrites the list of rules in `docs/rules.md`. The file is its text; line ends are
taken to be line feeds. `texts` gives what a rule says about itself, `grep` the output of `git grep`, stripped (none if it finds nothing, which
raises CalledProcessError). The result is the text of the file afterwards and whether the function raised.
-/
namespace CfnLint

/-- what a rule says about itself; the options with their types and defaults as texts -/
structure RuleText where
  title : String
  description : String
  url : String
  tags : List String
  options : List (String × String × String)
deriving DecidableEq, Repr

/-- the lines of a text as `readline` returns them -/
def linesOf : List Char → List (List Char)
  | [] => []
  | c :: cs =>
    if c = '\n' then ['\n'] :: linesOf cs
    else
      match linesOf cs with
      | [] => [[c]]
      | l :: ls => (c :: l) :: ls

/-- the lines up to the heading, maintenance.py:98-107 -/
def untilHeading : List (List Char) → List (List Char)
  | [] => []
  | l :: ls => if l = "## Rules\n".toList then [l] else l :: untilHeading ls

/-- the three rules of the linter itself, rules/__init__.py:479-503 -/
def ownRules : List (RuleInfo × RuleText) :=
  [({ id := "E0000" }, ⟨"Parsing error found when parsing the template", "Checks for JSON/YAML formatting errors in your template",
      "https://github.com/aws-cloudformation/cfn-python-lint", ["base"], []⟩),
   ({ id := "E0001" }, ⟨"Error found when transforming the template", "Errors found when performing transformation on the template",
      "https://github.com/aws-cloudformation/cfn-python-lint", ["base", "transform"], []⟩),
   ({ id := "E0002" }, ⟨"Error processing rule on the template", "Errors found when processing a rule on the template",
      "https://github.com/aws-cloudformation/cfn-python-lint", ["base", "rule"], []⟩)]

/-- the row of a rule, maintenance.py:125-134 -/
def docRow (r : RuleInfo) (d : RuleText) (found : String) : String :=
  let id := if r.experimental then r.id ++ "*" else r.id
  "| [" ++ id ++ "<a name=\"" ++ id ++ "\"></a>](" ++ "../" ++ found ++ ") | " ++ d.title ++ " | " ++ d.description ++ " | " ++
    String.intercalate "<br />" (d.options.map (fun o => o.1 ++ ":" ++ o.2.1 ++ ":" ++ o.2.2)) ++ " | [Source](" ++ d.url ++ ") | " ++
    String.intercalate "," (d.tags.map (fun t => "`" ++ t ++ "`")) ++ " |\n"

/-- the last line, maintenance.py:135 -/
def docEnd : List Char := "\n\\* experimental rules\n".toList

/-- the loop over the rules, maintenance.py:127-135: what is written, and whether it raised -/
def docRows (grep : String → Option String) : List (RuleInfo × RuleText) → List Char × Bool
  | [] => (docEnd, false)
  | (r, d) :: rest =>
    match grep r.id with
    | none => ([], true)
    | some f => ((docRow r d f).toList ++ (docRows grep rest).1, (docRows grep rest).2)

/-- the lines between the heading and the rows, maintenance.py:117-123 -/
def docIntro (n : Nat) : List Char :=
  "(_This documentation is generated by running `cfn-lint --update-documentation`, do not alter this manually_)\n\n".toList ++
  ("The following **" ++ toString (n + 3) ++ "** rules are applied by this linter:\n\n").toList ++
  "| Rule ID  | Title | Description | Config<br />(Name:Type:Default) | Source | Tags |\n".toList ++
  "| -------- | ----- | ----------- | ---------- | ------ | ---- |\n".toList

/-- `update_documentation`, maintenance.py:87-135 -/
def updateDocs (grep : String → Option String) (texts : RuleInfo → RuleText) (rules : List RuleInfo) (file : List Char) : List Char × Bool :=
  let sorted := rules.mergeSort idLe
  let rows := docRows grep (ownRules ++ sorted.map (fun r => (r, texts r)))
  ((untilHeading (linesOf file)).flatten ++ docIntro sorted.length ++ rows.1, rows.2)

/-- the rules that are documented, core.py:133-135 -/
def documentedRules (objs : List RuleObj) : PyM (List RuleInfo) :=
  match getRules objs { ignore := [], incl := [.str "I", .str "E", .str "W"], configureRules := [], includeExperimental := true, mandatory := [] } with
  | .error e => .error e
  | .ok c => .ok c.infos

end CfnLint
