import Verif.Model.CondRules
/-
Model of the variables of `Fn::Sub` (`get_sub_parameters`, template.py:453-462) and of the rules built on it:
W2001 (rules/parameters/Used.py), W7001 (rules/mappings/Used.py), W1019 (rules/functions/SubParametersUsed.py) and
W1020 (rules/functions/SubUnneeded.py). Messages are left out; a finding is its path and the name it is about.
`pre` is the template the linter was built with, `t` the template when the rule runs: the rules that use
`transform_pre` see the uses before a transform (template.py:37-41).
-/
namespace CfnLint

/-- the characters `str.strip` removes -/
def isPySpace (c : Char) : Bool :=
  let n := c.toNat
  (9 ≤ n && n ≤ 13) || (28 ≤ n && n ≤ 32) || n == 0x85 || n == 0xa0 || n == 0x1680 || (0x2000 ≤ n && n ≤ 0x200a) ||
    n == 0x2028 || n == 0x2029 || n == 0x202f || n == 0x205f || n == 0x3000

/-- `str.strip` -/
def pyStrip (s : List Char) : List Char :=
  ((s.dropWhile isPySpace).reverse.dropWhile isPySpace).reverse

/-- `.*?}`: the shortest text without a line break before a closing brace, and what follows the brace -/
def lazyClose : List Char → Option (List Char × List Char)
  | [] => none
  | c :: r =>
    if c = '}' then some ([], r)
    else if c = '\n' then none
    else (lazyClose r).map (fun p => (c :: p.1, p.2))

/-- a match of `\${[^!].*?}` at the front of the text: what is between the braces, and what follows. `[^!]`
matches every character except the exclamation mark, closing braces and line breaks as well. -/
def subMatch : List Char → Option (List Char × List Char)
  | '$' :: '{' :: c :: r =>
    if c = '!' then none else (lazyClose r).map (fun p => (c :: p.1, p.2))
  | _ => none

/-- `re.findall`: the matches from left to right, going on behind each; the counter is at least the length of the
text. -/
def subScan : Nat → List Char → List String
  | 0, _ => []
  | _ + 1, [] => []
  | n + 1, c :: r =>
    match subMatch (c :: r) with
    | some (body, rest) => String.ofList (pyStrip body) :: subScan n rest
    | none => subScan n r

/-- `get_sub_parameters`, template.py:453-462 -/
def subParams (s : String) : List String := subScan s.toList.length s.toList

/-- parameters/Used.py:42-47 for one `Fn::Sub`; `findall` of something that is no text raises -/
def subTexts (f : Path × Val) : PyM (List String) :=
  match f.2 with
  | .list [] => .error (.indexError "list index out of range")
  | .list (.str s :: _) => .ok (subParams s)
  | .list _ => .error (.typeError "expected string or bytes-like object")
  | .str s => .ok (subParams s)
  | _ => .ok []

/-- `get_parameters`, template.py:83-89, with the `.items()` of the callers -/
def parameterItems (t : Val) : PyM (List (Key × Val)) :=
  match t.getD "Parameters" (.dict []) with
  | .error e => .error e
  | .ok s => if s.truthy then itemsOf s else .ok []

/-- Rule W2001, parameters/Used.py:34-58 -/
def unusedParameters (pre t : Val) : PyM (List (Path × Key)) :=
  match collectM subTexts (searchDeepKeys "Fn::Sub" pre (.dict [])) with
  | .error e => .error e
  | .ok subs =>
    match parameterItems t with
    | .error e => .error e
    | .ok ps => .ok ((ps.filter (fun p =>
        (searchDeepKeys "Ref" pre (.dict [])).all (fun f => toKey f.2 != some p.1) &&
          subs.all (fun s => Key.str s != p.1))).map (fun p => ([.str "Parameters", p.1], p.1)))

/-- mappings/Used.py:25-40: the names used, `none` when a name is computed -/
def mapUses : List (Path × Val) → PyM (Option (List Val))
  | [] => .ok (some [])
  | f :: rest =>
    match f.2 with
    | .list [] => .error (.indexError "list index out of range")
    | .list (.dict _ :: _) => .ok none
    | .list (x :: _) =>
      match mapUses rest with
      | .error e => .error e
      | .ok r => .ok (r.map (x :: ·))
    | v =>
      match mapUses rest with
      | .error e => .error e
      | .ok r => .ok (r.map (v :: ·))

/-- Rule W7001, mappings/Used.py:17-51 -/
def unusedMappings (pre t : Val) : PyM (List (Path × Key)) :=
  match t.getD "Mappings" (.dict []) with
  | .error e => .error e
  | .ok ms =>
    if ms.truthy then
      match mapUses (searchDeepKeys "Fn::FindInMap" pre (.dict [])) with
      | .error e => .error e
      | .ok none => .ok []
      | .ok (some uses) =>
        match itemsOf ms with
        | .error e => .error e
        | .ok l => .ok ((l.filter (fun m => uses.all (fun u => toKey u != some m.1))).map
            (fun m => ([.str "Mappings", m.1], m.1)))
    else .ok []

/-- SubUnneeded.py:36-44 for one `Fn::Sub` -/
def subUnneededAt (f : Path × Val) : PyM (List Path) :=
  match f.2 with
  | .str s => .ok (if subParams s = [] then [f.1] else [])
  | .list [.str s, _] => .ok (if subParams s = [] then [f.1 ++ [.int 0]] else [])
  | .list [_, _] => .error (.typeError "expected string or bytes-like object")
  | _ => .ok []

/-- Rule W1020, SubUnneeded.py:31-46 -/
def subUnneeded (pre : Val) : PyM (List Path) :=
  collectM subUnneededAt (searchDeepKeys "Fn::Sub" pre (.dict []))

/-- SubParametersUsed.py:38-49 for one `Fn::Sub` -/
def subUnusedAt (f : Path × Val) : List (Path × Key) :=
  match f.2 with
  | .list [.str s, .dict m] =>
    (m.filter (fun kv => (subParams s).all (fun x => Key.str x != kv.1))).map (fun kv => (f.1 ++ [.int 1], kv.1))
  | _ => []

/-- Rule W1019, SubParametersUsed.py:32-51 -/
def subUnused (t globals : Val) : List (Path × Key) :=
  (searchDeepKeys "Fn::Sub" t globals).flatMap subUnusedAt

end CfnLint
