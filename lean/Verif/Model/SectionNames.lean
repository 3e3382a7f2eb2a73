import Verif.Model.Limits
import Verif.Model.Regex
/-
Model of the rules on the names in the sections of a template: E2003, E3006, E6004 and E7002 (`alphanumeric_name` of rules/common.py with
rules/parameters/Name.py, rules/resources/Name.py, rules/outputs/Name.py and rules/mappings/Name.py).
-/
namespace CfnLint

/-- the message, common.py:51 -/
def sectionNameText (s : Sect) (name : String) : String := s.single ++ " " ++ name ++ " has invalid name.  Name has to be alphanumeric."

/-- loop body of `alphanumeric_name`, common.py:50-52; `re.match` takes texts only -/
def oddName (s : Sect) (kv : Key × Val) : PyM (List LimitMatch) :=
  match kv.1 with
  | .str name => .ok (if regexAlphanumeric.matchesAll name then [] else [⟨[.str s.key, .str name], sectionNameText s name⟩])
  | .int _ => .error (.typeError "expected string or bytes-like object")

/-- `alphanumeric_name`, common.py:47-53, which is `match` of parameters/Name.py:17-18, resources/Name.py:17-18, outputs/Name.py:17-18 and mappings/Name.py:17-18 -/
def alphanumericName (template : Val) (s : Sect) : PyM (List LimitMatch) :=
  match template.getD s.key (.dict []) with
  | .error e => .error e
  | .ok v =>
    match pyItems v with
    | .error e => .error e
    | .ok kvs => gatherAll (oddName s) kvs

end CfnLint
