import Verif.Spec.Rules
import Verif.Model.Runner
/-
Specification of deduplication and directive suppression. Uses the data types `Match`, `Dir`,
`Directives` only.
-/
namespace CfnLint.Spec

/-- lexicographic order on positions -/
def PosLE (l1 c1 l2 c2 : Int) : Prop := l1 < l2 ∨ (l1 = l2 ∧ c1 ≤ c2)

/-- The finding (from its start to its end column on that line) lies inside the span. -/
def InSpan (d : Dir) (m : Match) : Prop :=
  PosLE d.startLine d.startCol m.line m.col ∧ PosLE m.line m.colEnd d.endLine d.endCol

/-- The coarser test: strictly between the lines, or on the first line at or after the start column, or
on the last line ending at or before the end column. -/
def Touches (d : Dir) (m : Match) : Prop :=
  (d.startLine < m.line ∧ m.line < d.endLine) ∨ (m.line = d.startLine ∧ d.startCol ≤ m.col) ∨
  (m.line = d.endLine ∧ m.colEnd ≤ d.endCol)

/-- Suppressed with respect to a notion of "covers". -/
def Suppressed (covers : Dir → Match → Prop) (dirs : Directives) (mandatory : List String)
    (m : Match) : Prop :=
  (∃ ds, dlookup (Val.str m.rule.id) dirs = some ds ∧ ∃ d ∈ ds, covers d m) ∧
  ¬ ∃ p ∈ mandatory, IsPrefix p m.rule.id

/-- Two findings are the same to a user: same line, column, rule id and message. -/
def SameFinding (a b : Match) : Prop :=
  a.line = b.line ∧ a.col = b.col ∧ a.rule.id = b.rule.id ∧ a.message = b.message

end CfnLint.Spec
