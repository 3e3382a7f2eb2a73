import Verif.Model.Transform
import Verif.Model.Core
/-
Model of `Runner.transform` (runner.py:25-42) and `Transform.transform_template` (transform.py:101-147). The translator of the serverless model is
an argument: it is given the template and the parameters that are set to `Alias`, and either returns a template or raises; it may change the
template that it is given. So is `convert_dict`, which is modelled in `Convert.lean`.
-/
namespace CfnLint

/-- what the translator raises: `InvalidDocumentException` with the messages of its causes, or another exception with its text -/
inductive SamErr where
  | invalid (causes : List String)
  | other (text : String)
deriving DecidableEq, Repr

/-- the translator: the template it was given afterwards, and its result -/
abbrev Translator := Val → List Val → Val × Except SamErr Val

/-- `Match(1, 1, 1, 1, self._filename, TransformError(), ...)`, transform.py:130-136 and 140-145 -/
def samMatch (file : String) (text : String) : Match :=
  { line := 1, col := 1, lineEnd := 1, colEnd := 1, filename := file, rule := transformErrorRule, message := "Error transforming template: " ++ text }

/-- What is left after `transform_template`: the matches, the template (`none` when an exception was raised while it was changed in place; it is
then not looked at any more, core.py:241-246) and whether `AWS_DEFAULT_REGION` was set. -/
structure SamOut where
  found : List Match
  template : Option Val
  region : Option String
deriving DecidableEq, Repr

/-- `transform_template`, transform.py:101-147 -/
def transformTemplate (translate : Translator) (convert : Val → Val) (file : String) (t : Val) (region : Val) : SamOut :=
  match replaceLocalCode t with
  | .error e => ⟨[samMatch file e.text], none, none⟩
  | .ok (t', ps) =>
    match region with
    | .str r =>
      match translate t' ps with
      | (_, .ok u) => ⟨[], some (convert u), some r⟩
      | (t'', .error (.invalid causes)) => ⟨causes.map (samMatch file), some t'', some r⟩
      | (t'', .error (.other s)) => ⟨[samMatch file s], some t'', some r⟩
    | _ => ⟨[samMatch file "str expected"], some t', none⟩

/-- the name of the transformation, runner.py:28 -/
def samName : String := "AWS::Serverless-2016-10-31"

/-- `sam_transform in transform_type`, runner.py:30-36 -/
def wantsSam (t : Val) : PyM Bool :=
  match t.getD "Transform" (.list []) with
  | .error e => .error e
  | .ok (.list xs) => .ok (xs.any (fun x => decide (x = .str samName)))
  | .ok v => .ok (decide (v = .str samName))

/-- `Runner.transform`, runner.py:25-42: what `transform_template` leaves, and the saved `Globals` -/
def runTransform (translate : Translator) (convert : Val → Val) (file : String) (t : Val) (regions : List Val) : PyM (SamOut × Option Val) :=
  match wantsSam t with
  | .error e => .error e
  | .ok false => .ok (⟨[], some t, none⟩, none)
  | .ok true =>
    match t.getD "Globals" (.dict []) with
    | .error e => .error e
    | .ok g =>
      match regions with
      | [] => .error (.indexError "list index out of range")
      | r :: _ => .ok (transformTemplate translate convert file t r, some g)

end CfnLint
