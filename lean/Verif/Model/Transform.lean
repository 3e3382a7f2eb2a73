import Verif.Model.Refs
/-
Model of the serverless pre-processing, `Transform._replace_local_codeuri` (transform.py:49-99) and
`_update_to_s3_uri` (transform.py:165-193). Exceptions abandon the transformation (they are reported by
`transform_template`), so the partly changed template of that case is not modelled. Values shared through YAML anchors are
treated as separate values.
-/
namespace CfnLint

/-- the default of `s3_uri_value`, transform.py:167 -/
def placeholder : Val := .str "s3://bucket/value"

/-- `is_s3_uri`, transform.py:150-162 -/
def isS3Uri : Val → Bool
  | .str s => startsWith s "s3://"
  | _ => false

/-- `_update_to_s3_uri(key, props)`, transform.py:165-193 -/
def updateToS3 (key : String) : Val → PyM Val
  | .dict props =>
    match (dlookup (Key.str key) props).getD (.str ".") with
    | .dict [(k, _)] =>
      if k = .str "Ref" then .ok (.dict (dset (.str key) placeholder props))
      else .ok (.dict props)
    | .dict _ => .ok (.dict props)
    | uri => if isS3Uri uri then .ok (.dict props) else .ok (.dict (dset (.str key) placeholder props))
  | v => .error (attrErr v "get")

/-- `if resource_dict.get(key): _update_to_s3_uri(key, resource_dict)`, transform.py:84-86, 97-98 -/
def updateIfSet (key : String) (props : Val) : PyM Val :=
  match props.getD key .none with
  | .error e => .error e
  | .ok v => if v.truthy then updateToS3 key props else .ok props

/-- transform.py:87-90: the old location is dropped -/
def updateLocation (props : Val) : PyM Val :=
  match props.getD "Location" .none with
  | .error e => .error e
  | .ok v =>
    if v.truthy then
      match props with
      | .dict kvs => updateToS3 "Location" (.dict (dset (.str "Location") (.str "") kvs))
      | p => .error (attrErr p "get")
    else .ok props

/-- transform.py:91-96 -/
def updateApi (props : Val) : PyM Val :=
  match pyIn "DefinitionBody" props, pyIn "Auth" props, pyIn "Cors" props with
  | .ok b, .ok a, .ok c =>
    if !b && !a && !c then updateToS3 "DefinitionUri" props
    else
      match props with
      | .dict kvs => .ok (.dict (dset (.str "DefinitionBody") (.str "") kvs))
      | _ => .error (.typeError "does not support item assignment")
  | .error e, _, _ => .error e
  | _, .error e, _ => .error e
  | _, _, .error e => .error e

/-- the properties of a resource of the given type afterwards, transform.py:72-98 -/
def updateProps (ty props : Val) : PyM Val :=
  if ty = .str "AWS::Serverless::Function" then updateToS3 "CodeUri" props
  else if ty = .str "AWS::Serverless::LayerVersion" then updateIfSet "ContentUri" props
  else if ty = .str "AWS::Serverless::Application" then updateLocation props
  else if ty = .str "AWS::Serverless::Api" then updateApi props
  else if ty = .str "AWS::Serverless::StateMachine" then updateIfSet "DefinitionUri" props
  else .ok props

/-- `v in self._template.get('Parameters')` for the name of an alias -/
def inParameters (t v : Val) : PyM Bool :=
  match t.getD "Parameters" .none with
  | .error e => .error e
  | .ok (.dict kvs) =>
    match v with
    | .str s => .ok (dhas (Key.str s) kvs)
    | .int i => .ok (dhas (Key.int i) kvs)
    | .bool b => .ok (dhas (Key.int (if b then 1 else 0)) kvs)
    | .list _ => .error (.typeError "unhashable type")
    | .dict _ => .error (.typeError "unhashable type")
    | _ => .ok false
  | .ok (.list xs) => .ok (decide (v ∈ xs))
  | .ok (.str s) =>
    match v with
    | .str x => .ok (decide (x.toList <:+: s.toList))
    | _ => .error (.typeError "requires string as left operand")
  | .ok _ => .error (.typeError "argument is not iterable")

/-- the parameter an `AutoPublishAlias` refers to, transform.py:62-67 and 77-82 -/
def aliasParam (t alias : Val) : PyM (List Val) :=
  match alias with
  | .dict [(k, v)] =>
    if k = .str "Ref" then
      match inParameters t v with
      | .error e => .error e
      | .ok b => .ok (if b then [v] else [])
    else .ok []
  | _ => .ok []

/-- the body of the loop for one resource, transform.py:72-98: the resource afterwards and the alias parameters -/
def replaceResource (t : Val) : Val → PyM (Val × List Val)
  | .dict r =>
    let props := (dlookup (Key.str "Properties") r).getD .none
    let ty := (dlookup (Key.str "Type") r).getD .none
    match updateProps ty props with
    | .error e => .error e
    | .ok p =>
      let r' : Val := .dict (if p = props then r else dset (.str "Properties") p r)
      if ty = .str "AWS::Serverless::Function" then
        match p.getD "AutoPublishAlias" .none with
        | .error e => .error e
        | .ok alias =>
          match aliasParam t alias with
          | .error e => .error e
          | .ok ps => .ok (r', ps)
      else .ok (r', [])
  | v => .error (attrErr v "get")

/-- the loop, transform.py:72-98 -/
def replaceResources (t : Val) : List (Key × Val) → PyM (List (Key × Val) × List Val)
  | [] => .ok ([], [])
  | (k, r) :: rest =>
    match replaceResource t r with
    | .error e => .error e
    | .ok (r', ps) =>
      match replaceResources t rest with
      | .error e => .error e
      | .ok (rest', ps') => .ok ((k, r') :: rest', ps ++ ps')

/-- the alias of `Globals`, transform.py:60-67 -/
def globalAlias (t : Val) : PyM (List Val) :=
  match t.getD "Globals" (.dict []) with
  | .error e => .error e
  | .ok g =>
    match g.getD "Function" (.dict []) with
    | .error e => .error e
    | .ok f =>
      match f.getD "AutoPublishAlias" .none with
      | .error e => .error e
      | .ok alias => aliasParam t alias

/-- `_replace_local_codeuri`, transform.py:49-99: the template afterwards and the parameters set to `Alias` -/
def replaceLocalCode (t : Val) : PyM (Val × List Val) :=
  match t with
  | .dict kvs =>
    match globalAlias t with
    | .error e => .error e
    | .ok ps =>
      match (dlookup (Key.str "Resources") kvs).getD (.dict []) with
      | .dict res =>
        match replaceResources t res with
        | .error e => .error e
        | .ok (res', ps') =>
          .ok (.dict (if dhas (Key.str "Resources") kvs then dset (.str "Resources") (.dict res') kvs else kvs), ps ++ ps')
      | v => .error (attrErr v "items")
  | v => .error (attrErr v "get")

end CfnLint
