import Verif.Model.ResProps
import Verif.Model.NodeOps
import Verif.Model.Runner
/-
Model of rule E2541 (rules/resources/codepipeline/CodepipelineStageActions.py). A finding is its path and which of the messages it carries.
-/
namespace CfnLint

/-- the messages -/
inductive ActionFault where
  | sameName (name : String) | versionLength | versionText | count (kind : String) (n : Nat) | input (name : String) | output (name : String)
deriving DecidableEq, Repr

/-- `CONSTRAINTS`, CodepipelineStageActions.py:19-122: the least and the greatest number of input artifacts and of output artifacts. A single
number of the table is written twice here. -/
def artifactRanges (owner category provider : String) : Option ((Nat × Nat) × (Nat × Nat)) :=
  match owner, category, provider with
  | "AWS", "Source", "S3" => some ((0, 0), (1, 1))
  | "AWS", "Source", "CodeCommit" => some ((0, 0), (1, 1))
  | "AWS", "Source", "ECR" => some ((0, 0), (1, 1))
  | "AWS", "Test", "CodeBuild" => some ((1, 5), (0, 5))
  | "AWS", "Test", "DeviceFarm" => some ((1, 1), (0, 0))
  | "AWS", "Build", "CodeBuild" => some ((1, 5), (0, 5))
  | "AWS", "Approval", "Manual" => some ((0, 0), (0, 0))
  | "AWS", "Deploy", "S3" => some ((1, 1), (0, 0))
  | "AWS", "Deploy", "CloudFormation" => some ((0, 10), (0, 1))
  | "AWS", "Deploy", "CodeDeploy" => some ((1, 1), (0, 0))
  | "AWS", "Deploy", "ElasticBeanstalk" => some ((1, 1), (0, 0))
  | "AWS", "Deploy", "OpsWorks" => some ((1, 1), (0, 0))
  | "AWS", "Deploy", "ECS" => some ((1, 1), (0, 0))
  | "AWS", "Deploy", "ServiceCatalog" => some ((1, 1), (0, 0))
  | "AWS", "Invoke", "Lambda" => some ((0, 5), (0, 5))
  | "ThirdParty", "Source", "GitHub" => some ((0, 0), (1, 1))
  | "ThirdParty", "Deploy", "AlexaSkillsKit" => some ((0, 2), (0, 0))
  | "Custom", "Build", "Jenkins" => some ((0, 5), (0, 5))
  | "Custom", "Test", "Jenkins" => some ((0, 5), (0, 5))
  | _, _, _ => none

/-- `a.get(name)` of an object -/
def fieldOf (kvs : List (Key × Val)) (name : String) : Val := (dlookup (Key.str name) kvs).getD .none

/-- `len(v)` -/
def lenOf : Val → Option Nat
  | .list xs => some xs.length
  | .dict kvs => some kvs.length
  | .str s => some s.length
  | _ => none

/-- `check_names_unique`, CodepipelineStageActions.py:208-221: the findings and the names after it -/
def uniqueName (kvs : List (Key × Val)) (path : Path) (names : List String) : List (Path × ActionFault) × List String :=
  match fieldOf kvs "Name" with
  | .str s => (if s ∈ names then [(path ++ [.str "Name"], .sameName s)] else [], s :: names)
  | _ => ([], names)

/-- `[0-9A-Za-z_-]` -/
def versionChar (c : Char) : Bool :=
  ('0' ≤ c && c ≤ '9') || ('A' ≤ c && c ≤ 'Z') || ('a' ≤ c && c ≤ 'z') || c = '_' || c = '-'

/-- `re.match('^[0-9A-Za-z_-]+$', s)`; `$` also matches before a line feed at the end -/
def versionMatch (l : List Char) : Bool :=
  let m := if l.getLast? = some '\n' then l.dropLast else l
  !m.isEmpty && m.all versionChar

/-- `check_version`, CodepipelineStageActions.py:183-206 -/
def versionCheck (kvs : List (Key × Val)) (path : Path) : PyM (List (Path × ActionFault)) :=
  match (dlookup (Key.str "ActionTypeId") kvs).getD (.dict []) with
  | .dict tid =>
    match fieldOf tid "Version" with
    | .str s =>
      if ¬ (1 ≤ s.length ∧ s.length ≤ 9) then .ok [(path ++ [.str "ActionTypeId", .str "Version"], .versionLength)]
      else if versionMatch s.toList then .ok []
      else .ok [(path ++ [.str "ActionTypeId", .str "Version"], .versionText)]
    | _ => .ok []
  | v => .error (attrErr v "get")

/-- `self.CONSTRAINTS.get(owner, {}).get(category, {}).get(provider, {})`, CodepipelineStageActions.py:142: none if there is no entry -/
def rangesFor (o c p : Val) : PyM (Option ((Nat × Nat) × (Nat × Nat))) :=
  match o, c, p with
  | .str o, .str c, .str p => .ok (artifactRanges o c p)
  | o, c, p => if o.isList || c.isList || p.isList then .error (.typeError "unhashable type") else .ok none

/-- `check_artifact_counts`, CodepipelineStageActions.py:129-181 -/
def artifactCount (kvs : List (Key × Val)) (kind : String) (pick : (Nat × Nat) × (Nat × Nat) → Nat × Nat) (path : Path) :
    PyM (List (Path × ActionFault)) :=
  match fieldOf kvs "ActionTypeId" with
  | .dict tid =>
    let o := fieldOf tid "Owner"
    let c := fieldOf tid "Category"
    let p := fieldOf tid "Provider"
    if o.isDict || c.isDict || p.isDict then .ok []
    else
      match rangesFor o c p with
      | .error e => .error e
      | .ok none => .ok []
      | .ok (some r) =>
        match lenOf ((dlookup (Key.str kind) kvs).getD (.list [])) with
        | none => .error (.typeError "object has no len()")
        | some n =>
          if (pick r).1 ≤ n ∧ n ≤ (pick r).2 then .ok []
          else if dhas (Key.str "Name") kvs then .ok [(path ++ [.str kind], .count kind n)]
          else .error (.keyError "Name")
  | v => .error (attrErr v "get")

/-- the names of artifacts in order, up to the first that is no object; CodepipelineStageActions.py:229-230 and 240-241 -/
def artifactNames : List Val → List String × Option PyErr
  | [] => ([], none)
  | .dict d :: rest =>
    match fieldOf d "Name" with
    | .str s => (s :: (artifactNames rest).1, (artifactNames rest).2)
    | _ => artifactNames rest
  | v :: _ => ([], some (attrErr v "get"))

/-- the names in a property that is a list; none otherwise, CodepipelineStageActions.py:227-228 and 238-239 -/
def listedNames : Val → List String × Option PyErr
  | .list xs => artifactNames xs
  | _ => ([], none)

/-- the loop over the output artifacts, CodepipelineStageActions.py:240-248 -/
def outputLoop (path : Path) : List String → List String → List (Path × ActionFault) × List String
  | [], arts => ([], arts)
  | s :: rest, arts =>
    let r := outputLoop path rest (s :: arts)
    ((if s ∈ arts then [(path ++ [.str "OutputArtifacts", .str "Name"], .output s)] else []) ++ r.1, r.2)

/-- `check_artifact_names`, CodepipelineStageActions.py:223-250. The names of outputs before an error are added, but the findings are lost. -/
def artifactCheck (kvs : List (Key × Val)) (path : Path) (arts : List String) : PyM (List (Path × ActionFault)) × List String :=
  let ins := listedNames (fieldOf kvs "InputArtifacts")
  match ins.2 with
  | some e => (.error e, arts)
  | none =>
    let outs := listedNames (fieldOf kvs "OutputArtifacts")
    let r := outputLoop path outs.1 arts
    match outs.2 with
    | some e => (.error e, r.2)
    | none =>
      (.ok (ins.1.flatMap (fun s => if s ∈ arts then [] else [(path ++ [.str "InputArtifacts", .str "Name"], .input s)]) ++ r.1), r.2)

/-- caught by `except AttributeError`, CodepipelineStageActions.py:290 -/
def isAttrError : PyErr → Bool
  | .attributeError _ => true
  | .templateAttributeError _ => true
  | _ => false

/-- the names of actions and of artifacts seen so far -/
structure SeenNames where
  actions : List String
  artifacts : List String
deriving DecidableEq, Repr

/-- the checks of an action that do not change the names, CodepipelineStageActions.py:283-287: the findings and the error that ends them -/
def plainChecks (kvs : List (Key × Val)) (path : Path) : List (Path × ActionFault) × Option PyErr :=
  match versionCheck kvs path with
  | .error e => ([], some e)
  | .ok a =>
    match artifactCount kvs "InputArtifacts" Prod.fst path with
    | .error e => (a, some e)
    | .ok b =>
      match artifactCount kvs "OutputArtifacts" Prod.snd path with
      | .error e => (a ++ b, some e)
      | .ok c => (a ++ b ++ c, none)

/-- one action, CodepipelineStageActions.py:278-292 -/
def actionStep (v : Val) (path : Path) (st : SeenNames) : PyM (List (Path × ActionFault) × SeenNames) :=
  match v with
  | .dict kvs =>
    let u := uniqueName kvs path st.actions
    let c := plainChecks kvs path
    match c.2 with
    | some e => if isAttrError e then .ok (u.1 ++ c.1, ⟨u.2, st.artifacts⟩) else .error e
    | none =>
      let r := artifactCheck kvs path st.artifacts
      match r.1 with
      | .error e => if isAttrError e then .ok (u.1 ++ c.1, ⟨u.2, r.2⟩) else .error e
      | .ok fs => .ok (u.1 ++ c.1 ++ fs, ⟨u.2, r.2⟩)
  | _ => .ok ([], st)

/-- the loop over the actions of a list -/
def actionLoop (base : Path) : List (Val × Path) → SeenNames → PyM (List (Path × ActionFault) × SeenNames)
  | [], st => .ok ([], st)
  | (v, p) :: rest, st =>
    match actionStep v (base ++ p) st with
    | .error e => .error e
    | .ok (fs, st') =>
      match actionLoop base rest st' with
      | .error e => .error e
      | .ok (gs, st'') => .ok (fs ++ gs, st'')

/-- what the loops over values found, the names, and whether the rule returned -/
structure PipeOut where
  found : List (Path × ActionFault)
  seen : SeenNames
  stop : Bool

/-- the values of `Actions`, CodepipelineStageActions.py:272-276 -/
def actionValues (base : Path) : List (Val × Path) → SeenNames → PyM PipeOut
  | [], st => .ok ⟨[], st, false⟩
  | (.list xs, p) :: rest, st =>
    match actionLoop base (listItemsSafe [] xs 0 p) st with
    | .error e => .error e
    | .ok (fs, st') =>
      match actionValues base rest st' with
      | .error e => .error e
      | .ok o => .ok ⟨fs ++ o.found, o.seen, o.stop⟩
  | _ :: _, st => .ok ⟨[], st, true⟩

/-- one stage, CodepipelineStageActions.py:269-276. The path is passed to `get_safe` as the default: without `Actions` the loop is over a plain
list, which has no `items_safe`. -/
def stageStep (base : Path) (v : Val) (p : Path) (arts : List String) : PyM PipeOut :=
  match v with
  | .dict kvs =>
    if dhas (Key.str "Actions") kvs then
      match getSafe kvs (.str "Actions") (.list (p.map Key.toVal)) [] [] with
      | .error e => .error e
      | .ok vs => actionValues (base ++ p) vs ⟨[], arts⟩
    else .error (.attributeError "items_safe")
  | v => .error (attrErr v "get_safe")

/-- the stages of a list -/
def stageLoop (base : Path) : List (Val × Path) → List String → PyM PipeOut
  | [], arts => .ok ⟨[], ⟨[], arts⟩, false⟩
  | (v, p) :: rest, arts =>
    match stageStep base v p arts with
    | .error e => .error e
    | .ok o =>
      if o.stop then .ok o
      else
        match stageLoop base rest o.seen.artifacts with
        | .error e => .error e
        | .ok o' => .ok ⟨o.found ++ o'.found, o'.seen, o'.stop⟩

/-- the values of `Stages`, CodepipelineStageActions.py:263-267 -/
def stageValues (base : Path) : List (Val × Path) → List String → PyM PipeOut
  | [], arts => .ok ⟨[], ⟨[], arts⟩, false⟩
  | (.list xs, p) :: rest, arts =>
    match stageLoop base (listItemsSafe [] xs 0 p) arts with
    | .error e => .error e
    | .ok o =>
      if o.stop then .ok o
      else
        match stageValues base rest o.seen.artifacts with
        | .error e => .error e
        | .ok o' => .ok ⟨o.found ++ o'.found, o'.seen, o'.stop⟩
  | _ :: _, arts => .ok ⟨[], ⟨[], arts⟩, true⟩

/-- one pipeline, CodepipelineStageActions.py:257-292 -/
def pipelineStep (path : Path) (v : Val) : PyM PipeOut :=
  match v with
  | .dict kvs =>
    if dhas (Key.str "Stages") kvs then
      match getSafe kvs (.str "Stages") (.list (path.map Key.toVal)) [] [] with
      | .error e => .error e
      | .ok vs => stageValues path vs []
    else .error (.attributeError "items_safe")
  | v => .error (attrErr v "get_safe")

/-- the loop over the pipelines; a value that is no list ends the rule for all of them -/
def pipelineLoop : List (Path × Val) → PyM (List (Path × ActionFault))
  | [] => .ok []
  | (p, v) :: rest =>
    match pipelineStep p v with
    | .error e => .error e
    | .ok o =>
      if o.stop then .ok o.found
      else
        match pipelineLoop rest with
        | .error e => .error e
        | .ok fs => .ok (o.found ++ fs)

/-- `match`, CodepipelineStageActions.py:252-294 -/
def stageActionsRule (fuel : Nat) (t : Val) : PyM (List (Path × ActionFault)) :=
  match resourceProperties fuel "AWS::CodePipeline::Pipeline" [] t with
  | .error e => .error e
  | .ok ps => pipelineLoop ps

end CfnLint
