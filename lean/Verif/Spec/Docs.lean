/-
A document with a part written by hand, a heading that is a line of its own, and a part that is generated.
-/
namespace CfnLint.Spec

/-- the text ends where a line ends -/
def WholeLines (l : List Char) : Prop := l = [] ∨ ∃ m, l = m ++ ['\n']

/-- the line `h` is in the text after `a` -/
def LineAfter (a h text : List Char) : Prop := WholeLines a ∧ ∃ rest, text = a ++ h ++ rest

/-- the first such line is after `a` -/
def FirstLine (a h text : List Char) : Prop := LineAfter a h text ∧ ∀ b, LineAfter b h text → a.length ≤ b.length

/-- cells separated by bars -/
def tableRow (cells : List String) : String := "| " ++ String.intercalate " | " cells ++ " |\n"

/-- a link -/
def linkTo (text target : String) : String := "[" ++ text ++ "](" ++ target ++ ")"

/-- the heading of the generated part -/
def rulesHeading : List Char := "## Rules\n".toList

/-- what precedes the rows when there are `n` -/
def tableStart (n : Nat) : List Char :=
  ("(_This documentation is generated by running `cfn-lint --update-documentation`, do not alter this manually_)\n\n" ++
  "The following **" ++ toString n ++ "** rules are applied by this linter:\n\n" ++
  tableRow ["Rule ID ", "Title", "Description", "Config<br />(Name:Type:Default)", "Source", "Tags"] ++
  tableRow ["--------", "-----", "-----------", "----------", "------", "----"]).toList

/-- what follows them -/
def tableEnd : List Char := "\n\\* experimental rules\n".toList

end CfnLint.Spec
