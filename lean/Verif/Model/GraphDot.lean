import Verif.Model.Graph
import Verif.Model.Lint
/-
Model of the option `--build-graph`: the graph with its labels (graph.py:18-94), `Graph.to_dot` (graph.py:119-129), `Template.build_graph` (template.py:52-61) and their place
in `run_cli` (core.py:43-60).

A node is the name of a resource with the value its label shows; an edge is its source, its target and its label. The order of the nodes in `networkx`, and the text the label
is made of, are not modelled. What `write_dot` does is the parameter `write`. The other parts of `run_cli` are in Model/Override and Model/Registry.
-/
namespace CfnLint

/-- the graph of a template -/
structure DotGraph where
  nodes : List (Key × Val)
  edges : List (Key × Key × String)
deriving DecidableEq, Repr

/-- edges with a label -/
def labelled (label : String) (es : List Edge) : List (Key × Key × String) := es.map (fun e => (e.1, e.2, label))

/-- the node of a resource, graph.py:25-28; one that is not an object has raised before -/
def dotNode (r : Key × Val) : Key × Val :=
  match r.2.getD "Type" (.str "") with
  | .ok ty => (r.1, ty)
  | .error _ => (r.1, .str "")

/-- `Graph.__init__` with the labels, graph.py:18-94; no transform has been applied, so that there are no `Globals` -/
def dotGraph (t : Val) : PyM DotGraph :=
  match resourcesOf t with
  | .error e => .error e
  | .ok res =>
    match collectM (dependsOnEdges res) res with
    | .error e => .error e
    | .ok d =>
      match collectM (refEdges res) (searchDeepKeys "Ref" t (.dict [])) with
      | .error e => .error e
      | .ok r =>
        match collectM (getAttEdges res) (searchDeepKeys "Fn::GetAtt" t (.dict [])) with
        | .error e => .error e
        | .ok g =>
          match collectM (subEdges res) (searchDeepKeys "Fn::Sub" t (.dict [])) with
          | .error e => .error e
          | .ok s => .ok ⟨res.map dotNode, labelled "DependsOn" d ++ labelled "Ref" r ++ labelled "GetAtt" g ++ labelled "Sub" s⟩

/-- what one of the two modules makes of the graph: it is not installed, it raises, or it writes the file -/
inductive Drawn where
  | notInstalled
  | raised (e : PyErr)
  | written
deriving DecidableEq, Repr

/-- the two modules that can write a graph -/
structure DotWriter where
  agraph : String → DotGraph → Drawn
  pydot : String → DotGraph → Drawn

/-- `Graph.to_dot`, graph.py:119-129 -/
def toDot (w : DotWriter) (path : String) (g : DotGraph) : Drawn :=
  match w.agraph path g with
  | .notInstalled => w.pydot path g
  | d => d

/-- `Template.build_graph`, template.py:52-61: the graph is made, then the name of the file; `none` is the standard input, which has no name. A missing module is logged. -/
def buildGraph (w : DotWriter) (file : Option String) (t : Val) : PyM (Option (String × DotGraph)) :=
  match dotGraph t with
  | .error e => .error e
  | .ok g =>
    match file with
    | none => .error (.typeError "unsupported operand type(s) for +: 'NoneType' and 'str'")
    | some f =>
      match toDot w (f ++ ".dot") g with
      | .notInstalled => .ok none
      | .raised e => .error e
      | .written => .ok (some (f ++ ".dot", g))

/-- `run_cli`, core.py:49-51 and 60: the graph is built, then the template is checked -/
def runCli (graph : Bool) (w : DotWriter) (file : Val → Option String) (check : Val → Option Coll → RunM (List Match)) (t : Val) (c : Option Coll) : RunM (List Match) :=
  if graph then
    match buildGraph w (file t) t with
    | .error e => .error (.py e)
    | .ok _ => check t c
  else check t c

end CfnLint
