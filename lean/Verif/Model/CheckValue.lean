import Verif.Model.Template
/-
Model of the dispatch of property values to the checks of a rule: `check_value` (template.py:527-582),
`check_resource_property` (template.py:504-524), `get_resources` (template.py:63-81) and `camel_to_snake`
(template.py:943-951). The checks are functions from a value and a path to findings of any type. The
keyword arguments passed through to them, and the parameters and resources passed to `check_ref`, are not
modelled.
-/
namespace CfnLint

/-- The checks a rule passes to `check_value`, template.py:527-531. -/
structure Checks (α : Type) where
  value : Option (Val → Path → PyM (List α)) := none
  ref : Option (Val → Path → PyM (List α)) := none
  getAtt : Option (Val → Path → PyM (List α)) := none
  findInMap : Option (Val → Path → PyM (List α)) := none
  split : Option (Val → Path → PyM (List α)) := none
  join : Option (Val → Path → PyM (List α)) := none
  importValue : Option (Val → Path → PyM (List α)) := none
  sub : Option (Val → Path → PyM (List α)) := none

/-- `[A-Z]` -/
def isUpperAZ (c : Char) : Bool := decide ('A' ≤ c ∧ c ≤ 'Z')
/-- `[a-z]` -/
def isLowerAZ (c : Char) : Bool := decide ('a' ≤ c ∧ c ≤ 'z')

/-- `re.sub(r'(.)([A-Z][a-z]+)', r'\1_\2', s)`, template.py:948,950. The first argument bounds the number
of steps; the length of the text is enough. -/
def underscore1 : Nat → List Char → List Char
  | 0, s => s
  | n + 1, a :: b :: c :: rest =>
    if a ≠ '\n' ∧ isUpperAZ b = true ∧ isLowerAZ c = true then
      a :: '_' :: b :: c :: (rest.takeWhile isLowerAZ ++ underscore1 n (rest.dropWhile isLowerAZ))
    else a :: underscore1 n (b :: c :: rest)
  | _ + 1, s => s

/-- `re.sub('([a-z0-9])([A-Z])', r'\1_\2', s)`, template.py:949,951. -/
def underscore2 : Nat → List Char → List Char
  | 0, s => s
  | n + 1, a :: b :: rest =>
    if (isLowerAZ a = true ∨ a.isDigit = true) ∧ isUpperAZ b = true then a :: '_' :: b :: underscore2 n rest
    else a :: underscore2 n (b :: rest)
  | _ + 1, s => s

/-- `camel_to_snake`, template.py:943-951. -/
def camelToSnake (s : String) : String :=
  let l := underscore1 s.length s.toList
  lower (String.ofList (underscore2 l.length l))

/-- `dict_name.replace('Fn::', '')`, template.py:553. -/
def removeFn : Nat → List Char → List Char
  | 0, s => s
  | n + 1, s =>
    match s with
    | 'F' :: 'n' :: ':' :: ':' :: rest => removeFn n rest
    | c :: rest => c :: removeFn n rest
    | [] => []

/-- `'check_%s' % camel_to_snake(dict_name.replace('Fn::', ''))`, template.py:552-553. -/
def checkName (name : String) : String :=
  "check_" ++ camelToSnake (String.ofList (removeFn name.length name.toList))

/-- `locals().get(function_name)`, template.py:563: the parameters of `check_value` whose names begin with
`check_`; no other local variable does. -/
def Checks.named {α : Type} (h : Checks α) (name : String) : Option (Val → Path → PyM (List α)) :=
  if name = "check_value" then h.value
  else if name = "check_ref" then h.ref
  else if name = "check_get_att" then h.getAtt
  else if name = "check_find_in_map" then h.findInMap
  else if name = "check_split" then h.split
  else if name = "check_join" then h.join
  else if name = "check_import_value" then h.importValue
  else if name = "check_sub" then h.sub
  else none

/-- `if check: matches.extend(check(...))` -/
def callCheck {α : Type} (check : Option (Val → Path → PyM (List α))) (v : Val) (p : Path) :
    PyM (List α) :=
  match check with
  | none => .ok []
  | some f => f v p

/-- The body of the loop, template.py:540-580; `path` is `new_path + child_path`. -/
def checkOne {α : Type} (h : Checks α) (v : Val) (path : Path) : PyM (List α) :=
  match v with
  | .dict [(k, arg)] =>
    match k with
    | .str name =>
      if name ∈ functionNames then
        if checkName name = "check_ref" then callCheck h.ref arg (path ++ [.str "Ref"])
        else callCheck (h.named (checkName name)) arg (path ++ [.str name])
      else callCheck h.value v path
    | .int _ => callCheck h.value v path
  | _ => callCheck h.value v path

/-- the loop, template.py:538-582 -/
def checkLoop {α : Type} (h : Checks α) (path : Path) : List (Path × Val) → List α → PyM (List α)
  | [], acc => .ok acc
  | (p, v) :: rest, acc =>
    match checkOne h v (path ++ p) with
    | .error e => .error e
    | .ok ms => checkLoop h path rest (acc ++ ms)

/-- `check_value`, template.py:527-582; `fuel` is the recursion limit of `get_values`. -/
def checkValue {α : Type} (fuel : Nat) (h : Checks α) (obj : Val) (key : String) (path : Path) :
    PyM (List α) :=
  match obj with
  | .dict kvs =>
    match getValues fuel ((dlookup (Key.str key) kvs).getD .none) [] with
    | .error e => .error e
    | .ok none => .ok []
    | .ok (some vs) => checkLoop h (path ++ [.str key]) vs []
  | _ => .ok []

/-- `get_resources`, template.py:63-81, for a list of types: the resources that are objects and whose type
is one of them, or, when the list is empty, that have a type. A type that is not a string is in no list of
strings. -/
def resourcesOfType (types : List String) (template : Val) : List (Key × List (Key × Val)) :=
  match template with
  | .dict top =>
    match dlookup (Key.str "Resources") top with
    | some (.dict rs) =>
      rs.filterMap (fun kv =>
        match kv.2 with
        | .dict r =>
          let ty := (dlookup (Key.str "Type") r).getD .none
          if types.any (fun t => Val.str t == ty) || (types.isEmpty && ty != .none) then some (kv.1, r)
          else none
        | _ => none)
    | _ => []
  | _ => []

/-- the loop of `check_resource_property`, template.py:511-523 -/
def checkResources {α : Type} (fuel : Nat) (h : Checks α) (key : String) :
    List (Key × List (Key × Val)) → List α → PyM (List α)
  | [], acc => .ok acc
  | (name, r) :: rest, acc =>
    let props := (dlookup (Key.str "Properties") r).getD (.dict [])
    if props.truthy then
      match checkValue fuel h props key [.str "Resources", name, .str "Properties"] with
      | .error e => .error e
      | .ok ms => checkResources fuel h key rest (acc ++ ms)
    else checkResources fuel h key rest acc

/-- `check_resource_property`, template.py:504-524. -/
def checkResourceProperty {α : Type} (fuel : Nat) (h : Checks α) (types : List String) (key : String)
    (template : Val) : PyM (List α) :=
  checkResources fuel h key (resourcesOfType types template) []

end CfnLint
