import Verif.Model.Config
/-
Model of the processing of a downloaded specification (maintenance.py:51-85): `patch_spec` (maintenance.py:138-163) and the replacement of the botocore types
(maintenance.py:59-80).

The `jsonpatch` package is taken to do what RFC 6902 says for `add`, `remove` and `replace`, the only operations in `data/ExtendedSpecs`. A path is a list of names of
members; none of the shipped paths goes into a list, so that going on from anything other than an object is a `JsonPointerException` or a `JsonPatchConflict`, which are
ignored. The directories are those without subdirectories. The value `shapes` gives the `shapes` of the description of a service that is downloaded (the cache does not
change what it is), and raises when there is none.
-/
namespace CfnLint

/-- an operation of a patch -/
inductive Patch where
  | add (path : List Key) (v : Val)
  | remove (path : List Key)
  | replace (path : List Key) (v : Val)

/-- `add` and `replace`: `none` when the place is not there -/
def putAt (mustExist : Bool) (v : Val) : List Key → Val → Option Val
  | [], _ => some v
  | [k], .dict kvs => if mustExist && !dhas k kvs then none else some (.dict (dset k v kvs))
  | k :: k' :: rest, .dict kvs =>
    match dlookup k kvs with
    | none => none
    | some x =>
      match putAt mustExist v (k' :: rest) x with
      | none => none
      | some y => some (.dict (dset k y kvs))
  | _ :: _, _ => none

/-- `remove`: `none` when the place is not there -/
def removeAt : List Key → Val → Option Val
  | [k], .dict kvs => if dhas k kvs then some (.dict (ddel k kvs)) else none
  | k :: k' :: rest, .dict kvs =>
    match dlookup k kvs with
    | none => none
    | some x =>
      match removeAt (k' :: rest) x with
      | none => none
      | some y => some (.dict (dset k y kvs))
  | _, _ => none

/-- `JsonPatch([patch]).apply(content, in_place=True)`; `none` for the exceptions that are ignored -/
def applyPatch (op : Patch) (doc : Val) : Option Val :=
  match op with
  | .add p v => putAt false v p doc
  | .remove p => removeAt p doc
  | .replace p v => putAt true v p doc

/-- the loop over the patches of a file, maintenance.py:153-161 -/
def applyPatches (ops : List Patch) (doc : Val) : Val :=
  ops.foldl (fun d op => (applyPatch op d).getD d) doc

/-- `patch_spec`, maintenance.py:138-163: the files of a directory, which the system lists in any order -/
def patchSpec (load : String → List Patch) (listing : List String) (doc : Val) : Val :=
  ((listing.mergeSort strLe).filter (fun f => endsWith f ".json")).foldl (fun d f => applyPatches (load f) d) doc

/-- the service and the type of a botocore text, maintenance.py:64-66: what is before and after its last slash -/
def serviceAndType (s : String) : String × String :=
  (String.ofList ((s.toList.reverse.dropWhile (fun c => c != '/')).drop 1).reverse, String.ofList (s.toList.reverse.takeWhile (fun c => c != '/')).reverse)

/-- the values of a botocore type, maintenance.py:64-69 -/
def botocoreValues (shapes : String → PyM (String → PyM (List String))) (v : Val) : PyM Val :=
  match v with
  | .str s =>
    match shapes (serviceAndType s).1 with
    | .error e => .error e
    | .ok types =>
      match types (serviceAndType s).2 with
      | .error e => .error e
      | .ok l => .ok (.list ((l.mergeSort strLe).map Val.str))
  | _ => .error (.attributeError "split")

mutual
/-- `search_and_replace_botocore_types`, maintenance.py:59-80 -/
def replaceBotocore (shapes : String → PyM (String → PyM (List String))) : Val → PyM Val
  | .dict kvs =>
    match replaceBotocoreDict shapes kvs [] with
    | .error e => .error e
    | .ok d => .ok (.dict d)
  | .list xs =>
    match replaceBotocoreList shapes xs with
    | .error e => .error e
    | .ok l => .ok (.list l)
  | v => .ok v
/-- the loop over an object, maintenance.py:62-71, with `new_obj` -/
def replaceBotocoreDict (shapes : String → PyM (String → PyM (List String))) : List (Key × Val) → List (Key × Val) → PyM (List (Key × Val))
  | [], acc => .ok acc
  | (k, v) :: rest, acc =>
    if k = .str "botocore" then
      match botocoreValues shapes v with
      | .error e => .error e
      | .ok l => replaceBotocoreDict shapes rest (dset (.str "AllowedValues") l acc)
    else
      match replaceBotocore shapes v with
      | .error e => .error e
      | .ok v' => replaceBotocoreDict shapes rest (dset k v' acc)
/-- the loop over a list, maintenance.py:76-77 -/
def replaceBotocoreList (shapes : String → PyM (String → PyM (List String))) : List Val → PyM (List Val)
  | [] => .ok []
  | v :: rest =>
    match replaceBotocore shapes v with
    | .error e => .error e
    | .ok v' =>
      match replaceBotocoreList shapes rest with
      | .error e => .error e
      | .ok rest' => .ok (v' :: rest')
end

/-- the processing of a specification, maintenance.py:51-82: the patches for all regions, those of the region, the botocore types -/
def processSpec (load : String → String → List Patch) (listing : String → List String) (shapes : String → PyM (String → PyM (List String))) (region : String) (doc : Val) : PyM Val :=
  replaceBotocore shapes (patchSpec (load region) (listing region) (patchSpec (load "all") (listing "all") doc))

end CfnLint
