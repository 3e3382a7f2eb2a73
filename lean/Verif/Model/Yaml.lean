import Verif.Model.Py
/-
Model of the YAML constructor of cfn-lint: `src/cfnlint/decode/cfn_yaml.py` (NodeConstructor,
multi_constructor, construct_getatt, loads) with PyYAML's `BaseConstructor.construct_object`,
`construct_mapping`, `construct_sequence` and `construct_scalar`.

The scanner, parser, composer and implicit resolver of PyYAML are not modelled: the input is the composed node
tree, whose nodes carry their resolved tags. Aliases are expanded (a recursive alias is rejected by PyYAML
itself). Trees are those after `flatten_mapping`, that is without merge keys. Marks are left out. Mapping keys
that are neither text nor integers nor booleans nor collections (floats, dates) are not modelled.
-/
namespace CfnLint

/-- A node of a composed YAML document. -/
inductive YNode where
  | scalar (tag value : String)
  | seq (tag : String) (items : List YNode)
  | map (tag : String) (pairs : List (YNode × YNode))
deriving Repr, Inhabited

/-- What construction raises: `parse` is `CfnParseError` (cfn_yaml.py:34), `ctor` another PyYAML
`ConstructorError`, `py` any other Python exception. -/
inductive YErr where
  | parse (msg : String)
  | ctor (msg : String)
  | py (e : PyErr)
deriving DecidableEq, Repr, Inhabited

abbrev YM := Except YErr

def strTag : String := "tag:yaml.org,2002:str"
def seqTag : String := "tag:yaml.org,2002:seq"
def mapTag : String := "tag:yaml.org,2002:map"
def nullTag : String := "tag:yaml.org,2002:null"

/-- the suffix of a `!Suffix` tag: `node.tag.startswith('!')`, PyYAML construct_object -/
def tagSuffix (tag : String) : Option String :=
  match tag.toList with
  | '!' :: r => some (String.ofList r)
  | _ => none

/-- cfn_yaml.py:152-153 -/
def fnName (suffix : String) : String :=
  if suffix = "Ref" ∨ suffix = "Condition" then suffix else "Fn::" ++ suffix

/-- `s.split('.', 1)` -/
def splitDot (s : String) : List Val :=
  match s.toList.dropWhile (· ≠ '.') with
  | [] => [.str s]
  | _ :: r => [.str (String.ofList (s.toList.takeWhile (· ≠ '.'))), .str (String.ofList r)]

/-- `s.value` of the items of a sequence node given to `!GetAtt` (cfn_yaml.py:178): the text of a scalar,
whatever its tag; for a collection the list of its child nodes, which is not template data. -/
def rawValue : YNode → YM Val
  | .scalar _ v => .ok (.str v)
  | _ => .error (.py (.other "a list of YAML nodes inside the template"))

def rawValues : List YNode → YM (List Val)
  | [] => .ok []
  | x :: xs =>
    match rawValue x with
    | .error e => .error e
    | .ok v =>
      match rawValues xs with
      | .error e => .error e
      | .ok vs => .ok (v :: vs)

/-- A constructed key as a dictionary key: `hash` of a list or dict raises `TypeError`; `True == 1`. -/
def hashKey : Val → YM Key
  | .str s => .ok (.str s)
  | .int i => .ok (.int i)
  | .bool b => .ok (.int (if b then 1 else 0))
  | .list _ => .error (.py (.typeError "unhashable type: 'list_node'"))
  | .dict _ => .error (.py (.typeError "unhashable type: 'dict_node'"))
  | _ => .error (.py (.other "key not modelled"))

/-- The duplicate error: `CfnParseError.__init__` takes `len(key)` (cfn_yaml.py:51), which raises `TypeError` for
a key that is not text. -/
def dupError : Val → YErr
  | .str s => .parse ("Duplicate resource found \"" ++ s ++ "\"")
  | _ => .py (.typeError "object of type 'int' has no len()")

/-- what the caller makes of the value of a short form: `dict_node({tag_suffix: …})` (cfn_yaml.py:167) -/
def wrapFn (suffix : String) (v : Val) : Val := .dict [(.str (fnName suffix), v)]


mutual
/-- `construct_object` (PyYAML) dispatching to the constructors registered at cfn_yaml.py:111-123 and to
`multi_constructor` (cfn_yaml.py:147-167). `ctor tag value` is what the remaining scalar constructors of
`SafeConstructor` (int, float, bool, timestamp, binary; undefined tags) give. -/
def yconstruct (ctor : String → String → YM Val) : YNode → YM Val
  | .scalar tag v =>
    if tag = strTag then .ok (.str v)
    else if tag = nullTag then .error (.parse "Null value")
    else if tag = mapTag then
      -- flatten_mapping unpacks the characters of the text
      if v = "" then .error (.ctor "expected a mapping node") else .error (.py (.valueError "not enough values to unpack"))
    else if tag = seqTag then .error (.ctor "expected a sequence node")
    else match tagSuffix tag with
      | some s =>
        if fnName s = "Fn::GetAtt" then .ok (wrapFn s (.list (splitDot v)))
        else .ok (wrapFn s (.str v))
      | none => ctor tag v
  | .seq tag xs =>
    if tag = seqTag then
      match yconstructList ctor xs with
      | .error e => .error e
      | .ok vs => .ok (.list vs)
    else if tag = nullTag then .error (.parse "Null value")
    else match tagSuffix tag with
      | some s =>
        if fnName s = "Fn::GetAtt" then
          match rawValues xs with
          | .error e => .error e
          | .ok vs => .ok (wrapFn s (.list vs))
        else
          match yconstructList ctor xs with
          | .error e => .error e
          | .ok vs => .ok (wrapFn s (.list vs))
      | none => .error (.ctor "could not determine a constructor for the tag")
  | .map tag kvs =>
    if tag = mapTag then
      match yconstructPairs ctor true kvs [] with
      | .error e => .error e
      | .ok d => .ok (.dict d)
    else if tag = nullTag then .error (.parse "Null value")
    else match tagSuffix tag with
      | some s =>
        if fnName s = "Fn::GetAtt" then
          -- `[s.value for s in node.value]` on pairs of nodes
          if kvs = [] then .ok (wrapFn s (.list []))
          else .error (.py (.attributeError "'tuple' object has no attribute 'value'"))
        else
          match yconstructPairs ctor false kvs [] with
          | .error e => .error e
          | .ok d => .ok (wrapFn s (.dict d))
      | none => .error (.ctor "could not determine a constructor for the tag")

/-- `construct_sequence` (PyYAML) -/
def yconstructList (ctor : String → String → YM Val) : List YNode → YM (List Val)
  | [] => .ok []
  | x :: xs =>
    match yconstruct ctor x with
    | .error e => .error e
    | .ok v =>
      match yconstructList ctor xs with
      | .error e => .error e
      | .ok vs => .ok (v :: vs)

/-- The loop of `construct_yaml_map` (cfn_yaml.py:77-89, `strict`) and of PyYAML's `construct_mapping` (not
`strict`): the key, the value, then the insertion. -/
def yconstructPairs (ctor : String → String → YM Val) (strict : Bool) :
    List (YNode × YNode) → List (Key × Val) → YM (List (Key × Val))
  | [], acc => .ok acc
  | (kn, vn) :: rest, acc =>
    match yconstruct ctor kn with
    | .error e => .error e
    | .ok k =>
      match yconstruct ctor vn with
      | .error e => .error e
      | .ok v =>
        match hashKey k with
        | .error e => .error e
        | .ok key =>
          if strict && dhas key acc then .error (dupError k)
          else yconstructPairs ctor strict rest (dset key v acc)
end

end CfnLint
