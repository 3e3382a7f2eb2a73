import Verif.Model.Py
/-
Model of the specification overrides: `merge_spec` and `set_specs` (helpers.py:324-382).

Failures in the middle of an in-place merge are modelled as failure of the whole. `includes` and `excludes` are the lists
popped from the override file (helpers.py:344-347), the override is what remains. The regular expression engine is the
parameter `rx`: `none` when `re.compile` raises, otherwise `re.match`.
-/
namespace CfnLint

mutual
/-- What `merge_spec` (helpers.py:324-334) leaves at a key whose source value is the first argument and whose old value
is the second: `setdefault` followed by the recursive merge into the node, or a plain assignment. Merging a nonempty
dictionary into something that is not one raises. -/
def mergeSpecVal : Val → Option Val → PyM Val
  | .dict sub, none =>
    match mergeSpec sub [] with
    | .error e => .error e
    | .ok n => .ok (.dict n)
  | .dict sub, some (.dict old) =>
    match mergeSpec sub old with
    | .error e => .error e
    | .ok n => .ok (.dict n)
  | .dict [], some other => .ok other
  | .dict (_ :: _), some _ => .error (.attributeError "setdefault")
  | v, _ => .ok v

/-- The loop of `merge_spec` over the items of the source. -/
def mergeSpec : List (Key × Val) → List (Key × Val) → PyM (List (Key × Val))
  | [], d => .ok d
  | (k, v) :: rest, d =>
    match mergeSpecVal v (dlookup k d) with
    | .error e => .error e
    | .ok n => mergeSpec rest (dset k n d)
end

/-- `pattern.replace('*', '(.*)') + '$'` (helpers.py:363, 373) -/
def typePattern (p : String) : String :=
  String.ofList (p.toList.flatMap (fun c => if c = '*' then "(.*)".toList else [c])) ++ "$"

/-- the resource types matching the includes, helpers.py:361-367 -/
def includeTypes (rx : String → Option (String → Bool)) (all : List String) : List String → PyM (List String)
  | [] => .ok []
  | p :: ps =>
    match rx (typePattern p) with
    | none => .error (.other "re.error")
    | some m =>
      match includeTypes rx all ps with
      | .error e => .error e
      | .ok r => .ok (all.filter m ++ r)

/-- the loop over the excludes, helpers.py:371-377: every match is removed, one occurrence at a time -/
def excludeTypes (rx : String → Option (String → Bool)) : List String → List String → PyM (List String)
  | [], res => .ok res
  | p :: ps, res =>
    match rx (typePattern p) with
    | none => .error (.other "re.error")
    | some m => excludeTypes rx ps ((res.filter m).foldl (fun r x => r.erase x) res)

/-- the names of a dictionary with text keys -/
def typeNames (d : List (Key × Val)) : List String :=
  d.filterMap (fun kv => match kv.1 with
    | .str s => some s
    | .int _ => none)

/-- whether a key names a type in the list -/
def keyIn (k : Key) (res : List String) : Bool :=
  match k with
  | .str s => decide (s ∈ res)
  | .int _ => false

/-- the types that stay, helpers.py:358-377 -/
def keptTypes (rx : String → Option (String → Bool)) (includes excludes all : List String) : PyM (List String) :=
  match (if includes = [] then .ok all else includeTypes rx all includes : PyM _) with
  | .error e => .error e
  | .ok res => excludeTypes rx excludes res

/-- `set_specs` (helpers.py:337-382) for one region -/
def setSpecs (rx : String → Option (String → Bool)) (includes excludes : List String) (override spec : List (Key × Val)) :
    PyM (List (Key × Val)) :=
  match (if override = [] then .ok spec else mergeSpec override spec : PyM _) with
  | .error e => .error e
  | .ok merged =>
    match dlookup (.str "ResourceTypes") merged with
    | none => .error (.keyError "ResourceTypes")
    | some (.dict types) =>
      match keptTypes rx includes excludes (typeNames types) with
      | .error e => .error e
      | .ok res =>
        .ok (dset (.str "ResourceTypes") (.dict (types.filter (fun kv => keyIn kv.1 res))) merged)
    | some _ => .error (.attributeError "keys")

end CfnLint
