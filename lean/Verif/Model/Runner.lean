import Verif.Model.Rules
import Verif.Model.Node
/-
Model of `src/cfnlint/runner.py` (deduplication and directive filtering) and of
`Template.get_directives` (template.py:202-219).
-/
namespace CfnLint

/-- One entry of the directive table: `{'start': (line, col), 'end': (line, col)}`, 1-based. -/
structure Dir where
  startLine : Int
  startCol : Int
  endLine : Int
  endCol : Int
deriving DecidableEq, Repr, Inhabited

/-- The directive table: ignored rule id ↦ directives (template.py:203). Ids come from the template and
may be any hashable value. -/
abbrev Directives := List (Val × List Dir)

/-- The position test of runner.py:68-73 (three `break`s). -/
def dirCovers (d : Dir) (m : Match) : Bool :=
  if d.startLine < m.line && m.line < d.endLine then true
  else if d.startLine == m.line && d.startCol ≤ m.col then true
  else if d.endLine == m.line && d.endCol ≥ m.colEnd then true
  else false

/-- The loop `for mandatory_rule in self.mandatory_rules`, runner.py:60-63: `true` when it breaks. -/
def mandatoryKeeps (id : String) : List Val → PyM Bool
  | [] => .ok false
  | p :: ps =>
    match startsWithV id p with
    | .error e => .error e
    | .ok true => .ok true
    | .ok false => mandatoryKeeps id ps

/-- The body of the loop of runner.py:55-76: is this (not yet reported) match appended? -/
def keepMatch (dirs : Directives) (mandatory : List Val) (m : Match) : PyM Bool :=
  match dlookup (Val.str m.rule.id) dirs with
  | none => .ok true
  | some ds =>
    match mandatoryKeeps m.rule.id mandatory with
    | .error e => .error e
    | .ok true => .ok true
    | .ok false => .ok (!ds.any (fun d => dirCovers d m))

/-- `Runner.run` after the rules have run, runner.py:53-78. -/
def runnerFilter (dirs : Directives) (mandatory : List Val) :
    List Match → List Match → PyM (List Match)
  | [], acc => .ok acc
  | m :: ms, acc =>
    if acc.any (fun u => m.eqv u) then runnerFilter dirs mandatory ms acc
    else
      match keepMatch dirs mandatory m with
      | .error e => .error e
      | .ok true => runnerFilter dirs mandatory ms (acc ++ [m])
      | .ok false => runnerFilter dirs mandatory ms acc

/-! ### get_directives -/

/-- `get_resources()` without a type filter, template.py:63-81: the resources that are objects with a
non-null `Type`. `template` is a dict in every caller. -/
def mGetResources (template : MVal) : PyM (List (MKey × MVal)) :=
  match template.get "Resources" (.dict default []) with
  | .error e => .error e
  | .ok (.dict _ kvs) => .ok (kvs.filter (fun kv =>
      match kv.2 with
      | .dict _ r =>
        match MVal.find (.str "Type") r with
        | some .none => false
        | some _ => true
        | none => false
      | _ => false))
  | .ok _ => .ok []

/-- `.get('Metadata', {}).get('cfn-lint', {}).get('config', {}).get('ignore_checks', [])`,
template.py:208-209. -/
def ignoreChecksOf (resource : MVal) : PyM MVal := do
  let a ← resource.get "Metadata" (.dict default [])
  let b ← a.get "cfn-lint" (.dict default [])
  let c ← b.get "config" (.dict default [])
  c.get "ignore_checks" (.list default [])

/-- The values `for x in v` yields: list elements, dict keys, the characters of a string; numbers,
Booleans and null are not iterable. -/
def pyIter : MVal → PyM (List Val)
  | .list _ xs => .ok (MVal.eraseList xs)
  | .dict _ kvs => .ok (kvs.map (fun kv => match kv.1.key with | .str s => .str s | .int i => .int i))
  | .str _ s => .ok (s.toList.map (fun c => .str (String.ofList [c])))
  | _ => .error (.typeError "object is not iterable")

/-- hashable values may be dictionary keys -/
def hashable : Val → Bool
  | .list _ => false
  | .dict _ => false
  | _ => true

/-- The inner loop of template.py:210-218. -/
def addDirectives (name : MKey) (value : MVal) : List Val → Directives → PyM Directives
  | [], acc => .ok acc
  | id :: ids, acc =>
    if !hashable id then .error (.typeError "unhashable type")
    else
      match value.loc with
      | .error e => .error e
      | .ok vl =>
        match name.loc with
        | .error e => .error e
        | .ok nl =>
          let d : Dir := ⟨nl.sl + 1, nl.sc + 1, vl.el + 1, vl.ec + 1⟩
          addDirectives name value ids (dset id ((dlookup id acc).getD [] ++ [d]) acc)

/-- The outer loop of template.py:206-218. -/
def directivesLoop : List (MKey × MVal) → Directives → PyM Directives
  | [], acc => .ok acc
  | (name, value) :: rest, acc =>
    match ignoreChecksOf value with
    | .error e => .error e
    | .ok ic =>
      match pyIter ic with
      | .error e => .error e
      | .ok ids =>
        match addDirectives name value ids acc with
        | .error e => .error e
        | .ok acc' => directivesLoop rest acc'

/-- `get_directives`, template.py:202-219. -/
def getDirectives (template : MVal) : PyM Directives :=
  match mGetResources template with
  | .error e => .error e
  | .ok rs => directivesLoop rs []

/-- `Runner.run`, runner.py:44-78, given the outcome of `RulesCollection.run`. -/
def runnerRun (template : MVal) (raw : PyM (List Match)) (mandatory : List Val) : PyM (List Match) :=
  match raw with
  | .error e => .error e
  | .ok ms =>
    match getDirectives template with
    | .error e => .error e
    | .ok dirs => runnerFilter dirs mandatory ms []

end CfnLint
