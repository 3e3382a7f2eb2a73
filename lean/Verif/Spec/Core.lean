import Verif.Model.Rules
/- Specifications for severities and ordering. -/
namespace CfnLint.Spec

/-- The finding's rule id begins with the given letter, in either case. -/
def HasLetter (upper lower : Char) (m : Match) : Prop :=
  ∃ c rest, m.rule.id.toList = c :: rest ∧ (c = upper ∨ c = lower)

def IsInfo (m : Match) : Prop := HasLetter 'I' 'i' m
def IsWarning (m : Match) : Prop := HasLetter 'W' 'w' m
def IsError (m : Match) : Prop := HasLetter 'E' 'e' m

/-- Report order: by file, then line, then rule id. -/
def ReportLE (a b : Match) : Prop :=
  a.filename < b.filename ∨ (a.filename = b.filename ∧
    (a.line < b.line ∨ (a.line = b.line ∧ a.rule.id ≤ b.rule.id)))

end CfnLint.Spec

namespace CfnLint.Spec

/-- Same file, line and rule id: such findings keep the order in which they were discovered. -/
def SamePlace (a b : Match) : Bool :=
  a.filename == b.filename && (a.line == b.line && a.rule.id == b.rule.id)

/-- `p` is an initial segment of `s`. -/
def Begins (p s : String) : Prop := ∃ t, p.toList ++ t = s.toList

end CfnLint.Spec
