import Verif.Spec.Template
/-
Schedule expressions of event rules: `rate(<value> <unit>)` and `cron(<minutes> <hours> <day of month> <month> <day of week> <year>)`.
-/
namespace CfnLint.Spec

/-- the pieces between the separators `c` -/
inductive Pieces (c : Char) : List Char → List (List Char) → Prop
  | last {a} : c ∉ a → Pieces c a [a]
  | more {a b ps} : c ∉ a → Pieces c b ps → Pieces c (a ++ c :: b) (a :: ps)

/-- the text is `head`, a text in parentheses and perhaps more; it ends with a closing parenthesis -/
def Enclosed (head : String) (s : String) (body : List Char) : Prop :=
  ∃ tail, s.toList = head.toList ++ '(' :: body ++ ')' :: tail ∧ ')' ∉ body ∧ (tail = [] ∨ ∃ t, tail = t ++ [')'])

/-- a number written in decimal digits -/
def DecimalNumber (l : List Char) : Prop := l ≠ [] ∧ ∀ c ∈ l, '0' ≤ c ∧ c ≤ '9'

/-- the unit, singular exactly for one -/
def UnitOf (v u : List Char) : Prop :=
  (v = ['1'] ∧ (u = "minute".toList ∨ u = "hour".toList ∨ u = "day".toList)) ∨
  (v ≠ ['1'] ∧ (u = "minutes".toList ∨ u = "hours".toList ∨ u = "days".toList))

/-- a field of a cron expression, as far as it matters here -/
def CronField (f : List Char) : Prop := f ≠ [] ∧ ' ' ∉ f ∧ ')' ∉ f

/-- `rate(<value> <unit>)` -/
def RateExpression (s : String) : Prop :=
  ∃ v u, s.toList = "rate(".toList ++ v ++ ' ' :: u ++ [')'] ∧ DecimalNumber v ∧ UnitOf v u

/-- `cron(...)` with six fields, of which exactly one of the two days is left open -/
def CronExpression (s : String) : Prop :=
  ∃ mi h dom mo dow y, s.toList = "cron(".toList ++ mi ++ ' ' :: h ++ ' ' :: dom ++ ' ' :: mo ++ ' ' :: dow ++ ' ' :: y ++ [')'] ∧
    (∀ f ∈ [mi, h, dom, mo, dow, y], CronField f) ∧ (dom = ['?'] ↔ dow ≠ ['?'])

/-- a schedule expression -/
def ScheduleExpression (s : String) : Prop := RateExpression s ∨ CronExpression s

end CfnLint.Spec
