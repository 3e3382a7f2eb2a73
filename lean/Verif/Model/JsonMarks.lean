import Verif.Model.Json
import Verif.Model.Node
/-
Model of the positions the JSON decoder records and reports: the marks of keys, objects
and lists (`src/cfnlint/decode/cfn_json.py:157-258`, `329-338`, `373-378`) and the place
of an error (`cfn_json.py:46-68`).

The decoder of Model/Json is written once more, now with the document at hand; a
position is still modelled by the characters that remain from it, `posOf` turns it into
an index.  That forgetting the marks gives back the decoder of Model/Json is a theorem
(`C97_erased`).
-/

namespace CfnLint

/-- Decoded JSON with marks.  Strings, numbers, truth values and null carry none
(cfn_json.py:288, 296-315 return plain Python values). -/
inductive JMVal where
  | atom (v : JVal)
  | arr (mark : Span) (vs : List JMVal)
  | obj (mark : Span) (kvs : List ((JText × Span) × JMVal))
  deriving Inhabited

/-- What the decoder raises, and where: the characters that remain at the position of
the error.  `about` is the key named by the message of a duplicate or null error, `key`
the argument of that name of `JSONDecodeError` (cfn_json.py:56). -/
inductive JPErr where
  | stop (rest : List Char)
  | cfn (msg : String) (about : Option JText) (rest : List Char) (key : JText)
  | std (msg : String) (rest : List Char)
  | type
  | value
  | fuel

/-- The error without its position. -/
def JPErr.erase : JPErr → JErr
  | .stop _ => .stop
  | .cfn m _ _ _ => .cfn m
  | .std m _ => .std m
  | .type => .type
  | .value => .value
  | .fuel => .fuel

abbrev JPM := Except JPErr

/-- `JSONDecodeError(msg, s, pos)`: the key is `' '` (cfn_json.py:56). -/
def cfnErr (msg : String) (rest : List Char) : JPErr := .cfn msg none rest [0x20]

/-- The loop of `str.rfind('\n')`: `i` is the index of the next character, `best` the last
newline so far. -/
def rfindLoop : List Char → Int → Int → Int
  | [], _, best => best
  | c :: r, i, best => rfindLoop r (i + 1) (if c = '\n' then i else best)

/-- `s.rfind('\n')` (cfn_json.py:58, 332): `-1` if there is none. -/
def rfindNl (s : List Char) : Int := rfindLoop s 0 (-1)

/-- `s.count('\n', 0, start)` (cfn_json.py:331) -/
def lineAt (doc : List Char) (pos : Nat) : Int := ((doc.take pos).count '\n' : Nat)

/-- `start - s.rfind('\n', 0, start)` (cfn_json.py:332) -/
def columnAt (doc : List Char) (pos : Nat) : Int := (pos : Int) - rfindNl (doc.take pos)

/-- `get_beg_end_mark` (cfn_json.py:329-338) -/
def begEndMark (doc : List Char) (start stop : Nat) : Span :=
  ⟨lineAt doc start, columnAt doc start, lineAt doc stop, columnAt doc stop⟩

/-- The index of the position at which `rest` remains. -/
def posOf (doc rest : List Char) : Nat := doc.length - rest.length

/-- `JSONDecodeError.__init__` (cfn_json.py:56-68): line and column of the error. -/
def errorAt (doc rest : List Char) : Int × Int :=
  (lineAt doc (posOf doc rest) + 1, columnAt doc (posOf doc rest))

/-- `_decode_uXXXX` (cfn_json.py:146-154); `rest` starts with the `u`. -/
def decodeUP (int16 : List Char → Option Int) (rest : List Char) (a b c d : Char) : JPM Int :=
  if b = 'x' ∨ b = 'X' then .error (cfnErr "Invalid \\uXXXX escape" rest)
  else match int16 [a, b, c, d] with
    | some u => .ok u
    | none => .error (cfnErr "Invalid \\uXXXX escape" rest)

/-- As `consText`. -/
def consTextP (u : Int) (r : JPM (JText × List Char)) : JPM (JText × List Char) :=
  if u < 0 then .error .value
  else match r with
    | .ok (t, s) => .ok (u.toNat :: t, s)
    | .error e => .error e

/-- As `pairStep` (cfn_json.py:131-136); the second escape is looked up at `end + 1`. -/
def pairStepP (int16 : List Char → Option Int) (uni : Int) (r : List Char) : JPM (Int × Nat) :=
  if 0xd800 ≤ uni ∧ uni ≤ 0xdbff ∧ r.take 2 = ['\\', 'u'] then
    match r.drop 2 with
    | a :: b :: c :: d :: _ =>
      match decodeUP int16 (r.drop 1) a b c d with
      | .error e => .error e
      | .ok uni2 =>
        if 0xdc00 ≤ uni2 ∧ uni2 ≤ 0xdfff then
          .ok (0x10000 + ((uni - 0xd800) * 1024 + (uni2 - 0xdc00)), 6)
        else .ok (uni, 0)
    | _ => .error (cfnErr "Invalid \\uXXXX escape" (r.drop 1))
  else .ok (uni, 0)

/-- `py_scanstring` (cfn_json.py:86-143); `start` remains at the opening quote. -/
def scanStringP (int16 : List Char → Option Int) (start : List Char) :
    List Char → JPM (JText × List Char)
  | [] => .error (cfnErr "Unterminated string starting at" start)
  | c :: r =>
    if c = '"' then .ok ([], r)
    else if c = '\\' then
      match r with
      | [] => .error (cfnErr "Unterminated string starting at" start)
      | e :: r1 =>
        if e = 'u' then
          match r1 with
          | a :: b :: c :: d :: r5 =>
            match decodeUP int16 (e :: r1) a b c d with
            | .error e => .error e
            | .ok uni =>
              match pairStepP int16 uni r5 with
              | .error e => .error e
              | .ok (u, k) => consTextP u (scanStringP int16 start (r5.drop k))
          | _ => .error (cfnErr "Invalid \\uXXXX escape" (e :: r1))
        else match backslash e with
          | none => .error (cfnErr "Invalid \\escape" (e :: r1))
          | some u => consTextP u (scanStringP int16 start r1)
    else if c.toNat < 0x20 then .error (cfnErr "Invalid control character" r)
    else consTextP c.toNat (scanStringP int16 start r)
termination_by s => s.length
decreasing_by all_goals simp_wf <;> omega

/-- Is the value `None`?  (cfn_json.py:38) -/
def JMVal.isNull : JMVal → Bool
  | .atom .null => true
  | _ => false

/-- `check_duplicates` (cfn_json.py:30-43): the message and the key it names. -/
def checkDuplicatesP : List ((JText × Span) × JMVal) → List JText → Option (String × JText)
  | [], _ => none
  | ((k, _), v) :: rest, seen =>
    if v.isNull then some ("Null Error", k)
    else if k ∈ seen then some ("Duplicate found", k)
    else checkDuplicatesP rest (k :: seen)

/-- The end of `CfnJSONObject` (cfn_json.py:244-252; for an object without members
179-186): `start` remains after the opening brace, `stop` after the closing one, `last` at
the opening quote of the last key, whose text is `key`. -/
def finishObjectP (doc start : List Char) (pairs : List ((JText × Span) × JMVal)) (last : List Char)
    (key : JText) (stop : List Char) : JPM (JMVal × List Char) :=
  match checkDuplicatesP pairs [] with
  | none => .ok (.obj (begEndMark doc (posOf doc start) (posOf doc stop)) pairs, stop)
  | some (m, k) => .error (.cfn m (some k) last key)

mutual
/-- `_scan_once` (cfn_json.py:280-317), with `CfnJSONObject` up to the first key
(cfn_json.py:157-195) and `JSONArray` (cfn_json.py:373-378). -/
def markOnce (int16 : List Char → Option Int) (doc : List Char) :
    Nat → List Char → JPM (JMVal × List Char)
  | 0, _ => .error .fuel
  | n + 1, s =>
    match s with
    | [] => .error (.stop s)
    | c :: r =>
      if c = '"' then
        match scanStringP int16 s r with
        | .ok (t, r') => .ok (.atom (.str t), r')
        | .error e => .error e
      else if c = '{' then
        match skipWs r with
        | [] => .error (cfnErr "Expecting property name enclosed in double quotes" [])
        | d :: r' =>
          if d = '}' then finishObjectP doc r [] (d :: r') [0x20] r'
          else if d = '"' then
            match markMembers int16 doc n r' with
            | .ok (pairs, last, key, r'') => finishObjectP doc r pairs last key r''
            | .error e => .error e
          else .error (cfnErr "Expecting property name enclosed in double quotes" (d :: r'))
      else if c = '[' then
        match skipWs r with
        | [] => .error (.std "Expecting value" [])
        | d :: r' =>
          if d = ']' then .ok (.arr (begEndMark doc (posOf doc r) (posOf doc r')) [], r')
          else match markItems int16 doc n (d :: r') with
            | .ok (vs, r'') => .ok (.arr (begEndMark doc (posOf doc r) (posOf doc r'')) vs, r'')
            | .error e => .error e
      else match scanAtom s with
        | .ok (v, r') => .ok (.atom v, r')
        | .error _ => .error (.stop s)

/-- The loop of `json.decoder.JSONArray`, at the first character of an item. -/
def markItems (int16 : List Char → Option Int) (doc : List Char) :
    Nat → List Char → JPM (List JMVal × List Char)
  | 0, _ => .error .fuel
  | n + 1, s =>
    match markOnce int16 doc n s with
    | .error (.stop r) => .error (.std "Expecting value" r)
    | .error e => .error e
    | .ok (v, r) =>
      match skipWs r with
      | [] => .error (.std "Expecting ',' delimiter" [])
      | d :: r' =>
        if d = ']' then .ok ([v], r')
        else if d = ',' then
          match markItems int16 doc n (skipWs r') with
          | .ok (vs, r'') => .ok (v :: vs, r'')
          | .error e => .error e
        else .error (.std "Expecting ',' delimiter" (d :: r'))

/-- The loop of `CfnJSONObject` (cfn_json.py:196-243), after the opening quote of a key:
the pairs, the position and the text of the last key (`begin` and `key`), and what
remains. -/
def markMembers (int16 : List Char → Option Int) (doc : List Char) :
    Nat → List Char → JPM (List ((JText × Span) × JMVal) × List Char × JText × List Char)
  | 0, _ => .error .fuel
  | n + 1, s =>
    match scanStringP int16 ('"' :: s) s with
    | .error e => .error e
    | .ok (k, r) =>
      match skipWs r with
      | [] => .error (cfnErr "Expecting ':' delimiter" [])
      | d :: r1 =>
        if d = ':' then
          match markOnce int16 doc n (skipWs r1) with
          | .error (.stop _) => .error .type
          | .error e => .error e
          | .ok (v, r2) =>
            match skipWs r2 with
            | [] => .error (cfnErr "Expecting ',' delimiter" [])
            | d :: r3 =>
              let mark := begEndMark doc (posOf doc ('"' :: s)) (posOf doc ('"' :: s) + k.length)
              if d = '}' then .ok ([((k, mark), v)], '"' :: s, k, r3)
              else if d = ',' then
                match skipWs r3 with
                | [] => .error (cfnErr "Expecting property name enclosed in double quotes" [])
                | q :: r4 =>
                  if q = '"' then
                    match markMembers int16 doc n r4 with
                    | .ok (kvs, last, key, r5) => .ok (((k, mark), v) :: kvs, last, key, r5)
                    | .error e => .error e
                  else .error (cfnErr "Expecting property name enclosed in double quotes" (q :: r4))
              else .error (cfnErr "Expecting ',' delimiter" (d :: r3))
        else .error (cfnErr "Expecting ':' delimiter" (d :: r1))
end

/-- `json.loads(content, cls=CfnJSONDecoder)` (cfn_json.py:355), with marks. -/
def markLoads (int16 : List Char → Option Int) (s : List Char) : JPM JMVal :=
  if s.head? = some (Char.ofNat 0xfeff) then .error (.std "Unexpected UTF-8 BOM (decode using utf-8-sig)" s)
  else match markOnce int16 s (2 * s.length + 2) (skipWs s) with
    | .error (.stop r) => .error (.std "Expecting value" r)
    | .error e => .error e
    | .ok (v, r) => if skipWs r = [] then .ok v else .error (.std "Extra data" (skipWs r))

mutual
/-- The value without its marks. -/
def JMVal.erase : JMVal → JVal
  | .atom v => v
  | .arr _ vs => .arr (JMVal.eraseList vs)
  | .obj _ kvs => .obj (JMVal.erasePairs kvs)
def JMVal.eraseList : List JMVal → List JVal
  | [] => []
  | v :: vs => v.erase :: JMVal.eraseList vs
def JMVal.erasePairs : List ((JText × Span) × JMVal) → List (JText × JVal)
  | [] => []
  | (k, v) :: kvs => (k.1, v.erase) :: JMVal.erasePairs kvs
end

mutual
/-- The nodes `cfn_json` builds, as the marked template values of Model/Node: keys are
`str_node`s (cfn_json.py:223), strings have no marks. -/
def JMVal.toMVal (textOf : JText → String) : JMVal → MVal
  | .atom .null => .none
  | .atom (.bool b) => .bool b
  | .atom (.int i) => .int i
  | .atom (.flt t) => .flt (String.ofList t)
  | .atom (.str s) => .str none (textOf s)
  | .atom (.arr _) => .none
  | .atom (.obj _) => .none
  | .arr m vs => .list m (JMVal.toMVals textOf vs)
  | .obj m kvs => .dict m (JMVal.toMPairs textOf kvs)
def JMVal.toMVals (textOf : JText → String) : List JMVal → List MVal
  | [] => []
  | v :: vs => v.toMVal textOf :: JMVal.toMVals textOf vs
def JMVal.toMPairs (textOf : JText → String) : List ((JText × Span) × JMVal) → List (MKey × MVal)
  | [] => []
  | ((k, m), v) :: kvs => (⟨.str (textOf k), some m⟩, v.toMVal textOf) :: JMVal.toMPairs textOf kvs
end

end CfnLint

namespace CfnLint

/-- Line, column and key length of the error a JSON document gives: cfn_json.py:56-68 for the
module's own error, `json.JSONDecodeError` computes line and column the same way. -/
def jsonPosOf (int16 : List Char → Option Int) (s : List Char) : Int × Int × Int :=
  match markLoads int16 s with
  | .error (.cfn _ _ rest key) => ((errorAt s rest).1, (errorAt s rest).2, (key.length : Nat))
  | .error (.std _ rest) => ((errorAt s rest).1, (errorAt s rest).2, 0)
  | _ => (0, 0, 0)

end CfnLint
