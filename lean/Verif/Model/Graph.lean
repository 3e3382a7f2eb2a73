import Verif.Model.Refs
/-
Model of the dependency graph (`src/cfnlint/graph.py`) and of rule E3004 (rules/resources/CircularDependency.py).

A graph is the list of its edges in the order they are added; the labels do not matter here. `networkx.find_cycle` is a
parameter: the edges of the cycle it returns (source, target, number of the parallel edge), or `none` for
`NetworkXNoCycle`. Keys of sections are strings or integers.
-/
namespace CfnLint

/-- an edge from a resource to one it depends on -/
abbrev Edge := Key × Key

/-- the concatenation of what a loop body yields, or its first exception -/
def collectM {α β : Type} (f : α → PyM (List β)) : List α → PyM (List β)
  | [] => .ok []
  | a :: as =>
    match f a with
    | .error e => .error e
    | .ok l =>
      match collectM f as with
      | .error e => .error e
      | .ok r => .ok (l ++ r)

/-- the dictionary key equal to a value: `True` and `1` are the same key -/
def toKey : Val → Option Key
  | .str s => some (.str s)
  | .int i => some (.int i)
  | .bool b => some (.int (if b then 1 else 0))
  | _ => none

/-- the truth value of `_is_resource(cfn, identifier)`, graph.py:110-111; lists and dictionaries cannot be looked up -/
def isResource (res : List (Key × Val)) (v : Val) : PyM Bool :=
  match v with
  | .list _ => .error (.typeError "unhashable type")
  | .dict _ => .error (.typeError "unhashable type")
  | v =>
    match toKey v with
    | none => .ok false
    | some k => .ok (((dlookup k res).getD (.dict [])).truthy)

/-- an edge to a value if it names a resource -/
def edgeTo (res : List (Key × Val)) (src : Key) (v : Val) : PyM (List Edge) :=
  match isResource res v with
  | .error e => .error e
  | .ok false => .ok []
  | .ok true => .ok ((toKey v).toList.map (fun k => (src, k)))

/-- the elements of `DependsOn` that are looked at, graph.py:29-34 -/
def dependsOnNames : Val → List Val
  | .str s => [.str s]
  | .list xs => xs.filter (fun x => match x with
    | .str _ => true
    | _ => false)
  | _ => []

/-- graph.py:25-37 for one resource -/
def dependsOnEdges (res : List (Key × Val)) (r : Key × Val) : PyM (List Edge) :=
  match r.2.getD "Type" (.str "") with
  | .error e => .error e
  | .ok _ =>
    match r.2.getD "DependsOn" (.list []) with
    | .error e => .error e
    | .ok d => collectM (edgeTo res r.1) (dependsOnNames d)

/-- the source of a path below `Resources`, graph.py:42-45 -/
def sourceOf : Path → Option Key
  | k :: s :: _ => if k = .str "Resources" then some s else none
  | _ => none

/-- graph.py:41-49 for one result of the search -/
def refEdges (res : List (Key × Val)) (f : Path × Val) : PyM (List Edge) :=
  match sourceOf f.1 with
  | none => .ok []
  | some src => if isRefName f.2 then edgeTo res src f.2 else .ok []

/-- the text before the first dot, `value.split('.')[0]` -/
def beforeDot (s : String) : String := String.ofList (s.toList.takeWhile (fun c => c ≠ '.'))

/-- graph.py:54-67 for one result of the search -/
def getAttEdges (res : List (Key × Val)) (f : Path × Val) : PyM (List Edge) :=
  match sourceOf f.1 with
  | none => .ok []
  | some src =>
    match f.2 with
    | .list [a, _] => edgeTo res src a
    | .str s => if '.' ∈ s.toList then edgeTo res src (.str (beforeDot s)) else .ok []
    | _ => .ok []

/-- `[a-zA-Z0-9.]` -/
def isTokenChar (c : Char) : Bool := c.isAlphanum || c == '.'

/-- the group of a match of `\${([a-zA-Z0-9.]*)}` at the start of the text -/
def tokenAt : List Char → Option String
  | '$' :: '{' :: r =>
    match r.dropWhile isTokenChar with
    | '}' :: _ => some (String.ofList (r.takeWhile isTokenChar))
    | _ => none
  | _ => none

/-- `_find_parameter(string)`, graph.py:114-116. A match holds no second `$`, so going on at the next character finds
what going on behind the match finds. -/
def findParams : List Char → List String
  | [] => []
  | c :: rest => (tokenAt (c :: rest)).toList ++ findParams rest

/-- graph.py:90-94 for one parameter of the text -/
def subParamEdges (res : List (Key × Val)) (src : Key) (vals : Val) (x : String) : PyM (List Edge) :=
  match pyIn x vals with
  | .error e => .error e
  | .ok true => .ok []
  | .ok false => edgeTo res src (.str (if '.' ∈ x.toList then beforeDot x else x))

/-- graph.py:71-94 for one result of the search; `findall` raises on anything but a string -/
def subEdges (res : List (Key × Val)) (f : Path × Val) : PyM (List Edge) :=
  match sourceOf f.1 with
  | none => .ok []
  | some src =>
    match f.2 with
    | .list [] => .ok []
    | .list [.str s, vals] => collectM (subParamEdges res src vals) (findParams s.toList)
    | .list (.str s :: _) => collectM (subParamEdges res src (.dict [])) (findParams s.toList)
    | .list _ => .error (.typeError "expected string or bytes-like object")
    | .str s => collectM (subParamEdges res src (.dict [])) (findParams s.toList)
    | _ => .ok []

/-- the entries of the `Resources` section, `cfn.template.get('Resources', {}).items()` -/
def resourcesOf (t : Val) : PyM (List (Key × Val)) :=
  match t.getD "Resources" (.dict []) with
  | .error e => .error e
  | .ok s => itemsOf s

/-- `Graph.__init__`, graph.py:18-94 -/
def graphEdges (t globals : Val) : PyM (List Edge) :=
  match resourcesOf t with
  | .error e => .error e
  | .ok res =>
    match collectM (dependsOnEdges res) res with
    | .error e => .error e
    | .ok d =>
      match collectM (refEdges res) (searchDeepKeys "Ref" t globals) with
      | .error e => .error e
      | .ok r =>
        match collectM (getAttEdges res) (searchDeepKeys "Fn::GetAtt" t globals) with
        | .error e => .error e
        | .ok g =>
          match collectM (subEdges res) (searchDeepKeys "Fn::Sub" t globals) with
          | .error e => .error e
          | .ok s => .ok (d ++ r ++ g ++ s)

/-- an edge as `find_cycle` reports it -/
abbrev CycleEdge := Key × Key × Nat

/-- the loop over the edges of a cycle, graph.py:102-104 -/
def addCycle (result cycle : List CycleEdge) : List CycleEdge :=
  cycle.foldl (fun r e => if e ∈ r then r else r ++ [e]) result

/-- one starting resource, graph.py:100-107 -/
def cycleStep (find : List Edge → Key → Option (List CycleEdge)) (edges : List Edge) (r : List CycleEdge) (n : Key) :
    List CycleEdge :=
  match find edges n with
  | some c => addCycle r c
  | none => r

/-- `get_cycles`, graph.py:97-107 -/
def getCycles (find : List Edge → Key → Option (List CycleEdge)) (edges : List Edge) (names : List Key) :
    List CycleEdge :=
  names.foldl (cycleStep find edges) []

/-- the text of a name in a message -/
def nameText : Key → String
  | .str s => s
  | .int i => pyStr (.int i)

/-- `CircularDependency.match`, CircularDependency.py:17-28: paths and messages -/
def circularDependency (find : List Edge → Key → Option (List CycleEdge)) (t globals : Val) :
    PyM (List (Path × String)) :=
  match resourcesOf t with
  | .error e => .error e
  | .ok res =>
    match graphEdges t globals with
    | .error e => .error e
    | .ok edges => .ok ((getCycles find edges (res.map Prod.fst)).map (fun c =>
        ([.str "Resources", c.1], "Circular Dependencies for resource " ++ nameText c.1 ++
          ". Circular dependency with [" ++ nameText c.2.1 ++ "]")))

end CfnLint
