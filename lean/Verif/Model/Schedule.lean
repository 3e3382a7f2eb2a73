import Verif.Model.CheckValue
import Verif.Model.Config
import Verif.Model.Runner
/-
Model of rule E3027 (rules/resources/events/RuleScheduleExpression.py). A finding is its path and which of the messages it carries. Whether a
character counts for `str.isdigit` is a parameter.
-/
namespace CfnLint

/-- the messages -/
inductive ScheduleFault where
  | form | rateEmpty | rateParts (n : Nat) | rateNumber | cronEmpty | cronParts (n : Nat) | cronDays
deriving DecidableEq, Repr

/-- `value[value.find('(')+1:value.find(')')]`, RuleScheduleExpression.py:25 and 50, for a text that has both characters -/
def insideParens (l : List Char) : List Char := (l.take (l.idxOf ')')).drop (l.idxOf '(' + 1)

/-- `s.isdigit()` -/
def digitsOnly (digit : Char → Bool) (s : List Char) : Bool := !s.isEmpty && s.all digit

/-- `check_rate`, RuleScheduleExpression.py:21-44 -/
def checkRate (digit : Char → Bool) (l : List Char) : List ScheduleFault :=
  if (insideParens l).isEmpty then [.rateEmpty]
  else
    match splitOn ' ' (insideParens l) with
    | [v, _] => if digitsOnly digit v then [] else [.rateNumber]
    | items => [.rateParts items.length]

/-- `check_cron`, RuleScheduleExpression.py:46-68 -/
def checkCron (l : List Char) : List ScheduleFault :=
  if (insideParens l).isEmpty then [.cronEmpty]
  else
    match splitOn ' ' (insideParens l) with
    | [_, _, dom, _, dow, _] => if dom ≠ ['?'] ∧ dow ≠ ['?'] then [.cronDays] else []
    | items => [.cronParts items.length]

/-- the messages on a text, RuleScheduleExpression.py:75-81 -/
def scheduleText (digit : Char → Bool) (s : String) : List ScheduleFault :=
  if "rate(".toList.isPrefixOf s.toList && [')'].isSuffixOf s.toList then checkRate digit s.toList
  else if "cron(".toList.isPrefixOf s.toList && [')'].isSuffixOf s.toList then checkCron s.toList
  else [.form]

/-- `check_value`, RuleScheduleExpression.py:70-83; `value.startswith` is an attribute of texts only -/
def scheduleCheck (digit : Char → Bool) (v : Val) (p : Path) : PyM (List (Path × ScheduleFault)) :=
  match v with
  | .str s => .ok ((scheduleText digit s).map (fun f => (p, f)))
  | v => .error (attrErr v "startswith")

/-- `match_resource_properties`, RuleScheduleExpression.py:85-96 -/
def scheduleRule (fuel : Nat) (digit : Char → Bool) (props : Val) (path : Path) : PyM (List (Path × ScheduleFault)) :=
  checkValue fuel { value := some (scheduleCheck digit) } props "ScheduleExpression" path

end CfnLint
