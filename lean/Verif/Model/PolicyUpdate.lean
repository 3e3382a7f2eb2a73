import Verif.Model.Update
/-
Model of the update of the IAM policies: `update_iam_policies` (maintenance.py:166-188).

The text of the download is an argument, an error when the request fails; `loads` is `json.loads`. The contents of the
file are the value written to it. The states of the file during the update are listed as in Model/Update: `open(f, 'w')`
truncates it before anything is written.
-/
namespace CfnLint

/-- the text before the first occurrence of `sep`, and the text after it -/
def cutAtText (sep : List Char) : List Char → Option (List Char × List Char)
  | [] => if sep.isPrefixOf [] then some ([], []) else none
  | c :: cs =>
    if sep.isPrefixOf (c :: cs) then some ([], (c :: cs).drop sep.length)
    else (cutAtText sep cs).map (fun x => (c :: x.1, x.2))

/-- `text.split(sep)[1]`, maintenance.py:178 -/
def secondPart (sep s : List Char) : PyM (List Char) :=
  match cutAtText sep s with
  | none => .error (.indexError "list index out of range")
  | some (_, r) =>
    match cutAtText sep r with
    | none => .ok r
    | some (b, _) => .ok b

/-- `v[key]` for a text `key`, of a plain value -/
def subscript (v : Val) (key : String) : PyM Val :=
  match v with
  | .dict kvs =>
    match dlookup (Key.str key) kvs with
    | some w => .ok w
    | none => .error (.keyError key)
  | _ => .error (.typeError "indices must be integers")

/-- `v[key] = w` for an object -/
def assign (v : Val) (key : String) (w : Val) : Val :=
  match v with
  | .dict kvs => .dict (dset (Key.str key) w kvs)
  | v => v

/-- `content['serviceMap'][service]['Actions'].extend(actions)`, maintenance.py:180-185 (with one action it is `append`):
the value of `content` afterwards -/
def extendActions (service : String) (actions : List String) (content : Val) : PyM Val :=
  match subscript content "serviceMap" with
  | .error e => .error e
  | .ok sm =>
    match subscript sm service with
    | .error e => .error e
    | .ok svc =>
      match subscript svc "Actions" with
      | .error e => .error e
      | .ok (.list l) =>
        .ok (assign content "serviceMap" (assign sm service (assign svc "Actions" (.list (l ++ actions.map .str)))))
      | .ok _ => .error (.attributeError "extend")

/-- what is written, maintenance.py:178-185 -/
def policyContent (loads : String → PyM Val) (text : String) : PyM Val :=
  match secondPart "app.PolicyEditorConfig=".toList text.toList with
  | .error e => .error e
  | .ok part =>
    match loads (String.ofList part) with
    | .error e => .error e
    | .ok v =>
      match extendActions "Manage Amazon API Gateway" ["HEAD", "OPTIONS"] v with
      | .error e => .error e
      | .ok v => extendActions "Amazon Kinesis Video Streams" ["StartStreamEncryption"] v

/-- `update_iam_policies`, maintenance.py:166-188: the states of the file, and the outcome -/
def updatePolicies (loads : String → PyM Val) (download : PyM String) (file : File Val) : List (File Val) × PyM Unit :=
  match download with
  | .error e => ([file], .error e)
  | .ok text =>
    match policyContent loads text with
    | .error e => ([file], .error e)
    | .ok v => ([file, .torn, .whole v], .ok ())

end CfnLint
