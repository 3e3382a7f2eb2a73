/-
Model of the JSON decoder of cfn-lint: `src/cfnlint/decode/cfn_json.py`, together with
the parts of Python's `json.decoder` it calls (`JSONArray`, `JSONDecoder.decode`,
`JSONDecoder.raw_decode`, the `WHITESPACE`, `STRINGCHUNK` and `NUMBER_RE` patterns).

* A position in the document is modelled by the characters that remain, so marks are
  not modelled here.
* A decoded string is a list of code points (`JText`), because Python strings may hold
  lone surrogates, which are not `Char`s.
* A floating point number is kept as its text: `float(text)` is opaque.
* `\d` in `NUMBER_RE` is restricted to the ASCII digits.
* The recursion of the scanner is bounded by a counter which `jsonLoads` sets high
  enough for every document (`scan_fuel_suffices` in Lemmas/Json).
-/

namespace CfnLint

/-- A decoded Python string: its code points. -/
abbrev JText := List Nat

/-- Decoded JSON values.  `obj` lists the members in document order; `dict_node`s built
by `check_duplicates` (cfn_json.py:30-43) never hold two members of one key. -/
inductive JVal where
  | null
  | bool (b : Bool)
  | int (i : Int)
  | flt (text : List Char)
  | str (s : JText)
  | arr (vs : List JVal)
  | obj (kvs : List (JText × JVal))
  deriving Repr, Inhabited

/-- What the decoder can raise.
`stop` is `StopIteration` (cfn_json.py:287, 319), `cfn` the module's own
`JSONDecodeError` (cfn_json.py:46), `std` the standard library's `JSONDecodeError`,
`type` a `TypeError` (raised when `JSONDecodeError` is built with a string position,
cfn_json.py:222), `value` a bare `ValueError` (`chr` of a negative number),
`fuel` never happens (see `scan_fuel_suffices`). -/
inductive JErr where
  | stop
  | cfn (msg : String)
  | std (msg : String)
  | type
  | value
  | fuel
  deriving Repr, DecidableEq

abbrev JM := Except JErr

/-- `WHITESPACE_STR` of `json.decoder`. -/
def isJsonWs (c : Char) : Bool := c == ' ' || c == '\t' || c == '\n' || c == '\r'

/-- `WHITESPACE.match(s, end).end()`. -/
def skipWs (s : List Char) : List Char := s.dropWhile isJsonWs

/-- `BACKSLASH` of `json.decoder`, read at cfn_json.py:121. -/
def backslash (c : Char) : Option Nat :=
  if c = '"' then some 0x22 else
  if c = '\\' then some 0x5c else
  if c = '/' then some 0x2f else
  if c = 'b' then some 0x08 else
  if c = 'f' then some 0x0c else
  if c = 'n' then some 0x0a else
  if c = 'r' then some 0x0d else
  if c = 't' then some 0x09 else none

/-- `_decode_uXXXX` (cfn_json.py:146-154) on the four characters it looks at.
`int16` is Python's `int(esc, 16)`, `none` when it raises `ValueError`; it accepts more
than hexadecimal digits (signs, blanks, underscores), so it is a parameter. -/
def decodeU (int16 : List Char → Option Int) (a b c d : Char) : JM Int :=
  if b = 'x' ∨ b = 'X' then .error (.cfn "Invalid \\uXXXX escape")
  else match int16 [a, b, c, d] with
    | some u => .ok u
    | none => .error (.cfn "Invalid \\uXXXX escape")

/-- `chunks` grow by one character; `chr` of a negative number raises `ValueError`
(cfn_json.py:139). -/
def consText (u : Int) (r : JM (JText × List Char)) : JM (JText × List Char) :=
  if u < 0 then .error .value
  else match r with
    | .ok (t, s) => .ok (u.toNat :: t, s)
    | .error e => .error e

/-- The unicode escape branch of `py_scanstring` after its first `\uXXXX`
(cfn_json.py:131-136): the code point and how many more characters are consumed, six
if a second escape completes a surrogate pair. -/
def pairStep (int16 : List Char → Option Int) (uni : Int) (r : List Char) : JM (Int × Nat) :=
  if 0xd800 ≤ uni ∧ uni ≤ 0xdbff ∧ r.take 2 = ['\\', 'u'] then
    match r.drop 2 with
    | a :: b :: c :: d :: _ =>
      match decodeU int16 a b c d with
      | .error e => .error e
      | .ok uni2 =>
        if 0xdc00 ≤ uni2 ∧ uni2 ≤ 0xdfff then
          .ok (0x10000 + ((uni - 0xd800) * 1024 + (uni2 - 0xdc00)), 6)
        else .ok (uni, 0)
    | _ => .error (.cfn "Invalid \\uXXXX escape")
  else .ok (uni, 0)

/-- `py_scanstring` (cfn_json.py:86-143) with `strict` set, started after the opening
quote. -/
def scanString (int16 : List Char → Option Int) : List Char → JM (JText × List Char)
  | [] => .error (.cfn "Unterminated string starting at")
  | c :: r =>
    if c = '"' then .ok ([], r)
    else if c = '\\' then
      match r with
      | [] => .error (.cfn "Unterminated string starting at")
      | e :: r1 =>
        if e = 'u' then
          match r1 with
          | a :: b :: c :: d :: r5 =>
            match decodeU int16 a b c d with
            | .error e => .error e
            | .ok uni =>
              match pairStep int16 uni r5 with
              | .error e => .error e
              | .ok (u, k) => consText u (scanString int16 (r5.drop k))
          | _ => .error (.cfn "Invalid \\uXXXX escape")
        else match backslash e with
          | none => .error (.cfn "Invalid \\escape")
          | some u => consText u (scanString int16 r1)
    else if c.toNat < 0x20 then .error (.cfn "Invalid control character")
    else consText c.toNat (scanString int16 r)
termination_by s => s.length

/-- The digits `\d*` at the front of the text, and what follows. -/
def digits (s : List Char) : List Char × List Char := (s.takeWhile Char.isDigit, s.dropWhile Char.isDigit)

/-- `-?(?:0|[1-9]\d*)` of `NUMBER_RE`. -/
def matchInteger (s : List Char) : Option (List Char × List Char) :=
  let (sign, r) := match s with
    | '-' :: r => (['-'], r)
    | _ => ([], s)
  match r with
  | [] => none
  | c :: r' =>
    if c = '0' then some (sign ++ ['0'], r')
    else if c.isDigit then some (sign ++ c :: (digits r').1, (digits r').2)
    else none

/-- `(\.\d+)?` of `NUMBER_RE`. -/
def matchFrac (s : List Char) : List Char × List Char :=
  match s with
  | '.' :: r => if (digits r).1 = [] then ([], s) else ('.' :: (digits r).1, (digits r).2)
  | _ => ([], s)

/-- `([eE][-+]?\d+)?` of `NUMBER_RE`. -/
def matchExp (s : List Char) : List Char × List Char :=
  match s with
  | [] => ([], s)
  | e :: r =>
    if e = 'e' ∨ e = 'E' then
      let (sign, r') := match r with
        | '+' :: r' => (['+'], r')
        | '-' :: r' => (['-'], r')
        | _ => ([], r)
      if (digits r').1 = [] then ([], s) else (e :: sign ++ (digits r').1, (digits r').2)
    else ([], s)

/-- `int(text)` on a match of the integer part. -/
def parseInt (t : List Char) : Int :=
  let nat (ds : List Char) : Nat := ds.foldl (fun n c => 10 * n + (c.toNat - 48)) 0
  match t with
  | '-' :: ds => - (nat ds : Int)
  | ds => nat ds

/-- The number branch of `_scan_once` (cfn_json.py:304-311). -/
def matchNumber (s : List Char) : Option (JVal × List Char) :=
  match matchInteger s with
  | none => none
  | some (i, r) =>
    let (frac, r1) := matchFrac r
    let (exp, r2) := matchExp r1
    if frac = [] ∧ exp = [] then some (.int (parseInt i), r2)
    else some (.flt (i ++ frac ++ exp), r2)

/-- `string[idx:idx + n] == word`: the rest of the text after the word. -/
def dropWord (w s : List Char) : Option (List Char) :=
  if w.isPrefixOf s then some (s.drop w.length) else none

/-- The branches of `_scan_once` for words and numbers (cfn_json.py:297-317). -/
def scanAtom (s : List Char) : JM (JVal × List Char) :=
  match dropWord "null".toList s with
  | some r => .ok (.null, r)
  | none =>
  match dropWord "true".toList s with
  | some r => .ok (.bool true, r)
  | none =>
  match dropWord "false".toList s with
  | some r => .ok (.bool false, r)
  | none =>
  match matchNumber s with
  | some p => .ok p
  | none =>
  match dropWord "NaN".toList s with
  | some r => .ok (.flt "NaN".toList, r)
  | none =>
  match dropWord "Infinity".toList s with
  | some r => .ok (.flt "Infinity".toList, r)
  | none =>
  match dropWord "-Infinity".toList s with
  | some r => .ok (.flt "-Infinity".toList, r)
  | none => .error .stop

/-- `check_duplicates` (cfn_json.py:30-43): `seen` are the keys of `mapping`. -/
def checkDuplicates : List (JText × JVal) → List JText → JM Unit
  | [], _ => .ok ()
  | (k, v) :: rest, seen =>
    match v with
    | .null => .error (.cfn "Null Error")
    | _ =>
      if k ∈ seen then .error (.cfn "Duplicate found")
      else checkDuplicates rest (k :: seen)

/-- The end of `CfnJSONObject` (cfn_json.py:243-252): the hook is applied to the pairs. -/
def finishObject (pairs : List (JText × JVal)) (r : List Char) : JM (JVal × List Char) :=
  match checkDuplicates pairs [] with
  | .ok () => .ok (.obj pairs, r)
  | .error e => .error e

mutual
/-- `_scan_once` (cfn_json.py:280-317), with `CfnJSONObject` up to the first key
(cfn_json.py:160-196) and `json.decoder.JSONArray` up to the first item. -/
def scanOnce (int16 : List Char → Option Int) : Nat → List Char → JM (JVal × List Char)
  | 0, _ => .error .fuel
  | n + 1, s =>
    match s with
    | [] => .error .stop
    | c :: r =>
      if c = '"' then
        match scanString int16 r with
        | .ok (t, r') => .ok (.str t, r')
        | .error e => .error e
      else if c = '{' then
        match skipWs r with
        | [] => .error (.cfn "Expecting property name enclosed in double quotes")
        | d :: r' =>
          if d = '}' then finishObject [] r'
          else if d = '"' then
            match scanMembers int16 n r' with
            | .ok (pairs, r'') => finishObject pairs r''
            | .error e => .error e
          else .error (.cfn "Expecting property name enclosed in double quotes")
      else if c = '[' then
        match skipWs r with
        | [] => .error (.std "Expecting value")
        | d :: r' =>
          if d = ']' then .ok (.arr [], r')
          else match scanItems int16 n (d :: r') with
            | .ok (vs, r'') => .ok (.arr vs, r'')
            | .error e => .error e
      else scanAtom s

/-- The loop of `json.decoder.JSONArray`, at the first character of an item. -/
def scanItems (int16 : List Char → Option Int) : Nat → List Char → JM (List JVal × List Char)
  | 0, _ => .error .fuel
  | n + 1, s =>
    match scanOnce int16 n s with
    | .error .stop => .error (.std "Expecting value")
    | .error e => .error e
    | .ok (v, r) =>
      match skipWs r with
      | [] => .error (.std "Expecting ',' delimiter")
      | d :: r' =>
        if d = ']' then .ok ([v], r')
        else if d = ',' then
          match scanItems int16 n (skipWs r') with
          | .ok (vs, r'') => .ok (v :: vs, r'')
          | .error e => .error e
        else .error (.std "Expecting ',' delimiter")

/-- The loop of `CfnJSONObject` (cfn_json.py:197-242), after the opening quote of a
key. -/
def scanMembers (int16 : List Char → Option Int) :
    Nat → List Char → JM (List (JText × JVal) × List Char)
  | 0, _ => .error .fuel
  | n + 1, s =>
    match scanString int16 s with
    | .error e => .error e
    | .ok (k, r) =>
      match skipWs r with
      | [] => .error (.cfn "Expecting ':' delimiter")
      | d :: r1 =>
        if d = ':' then
          match scanOnce int16 n (skipWs r1) with
          | .error .stop => .error .type
          | .error e => .error e
          | .ok (v, r2) =>
            match skipWs r2 with
            | [] => .error (.cfn "Expecting ',' delimiter")
            | d :: r3 =>
              if d = '}' then .ok ([(k, v)], r3)
              else if d = ',' then
                match skipWs r3 with
                | [] => .error (.cfn "Expecting property name enclosed in double quotes")
                | q :: r4 =>
                  if q = '"' then
                    match scanMembers int16 n r4 with
                    | .ok (kvs, r5) => .ok ((k, v) :: kvs, r5)
                    | .error e => .error e
                  else .error (.cfn "Expecting property name enclosed in double quotes")
              else .error (.cfn "Expecting ',' delimiter")
        else .error (.cfn "Expecting ':' delimiter")
end

/-- `json.loads(content, cls=CfnJSONDecoder)` (cfn_json.py:355): the byte order mark
check of `json.loads`, then `JSONDecoder.decode` and `raw_decode`. -/
def jsonLoads (int16 : List Char → Option Int) (s : List Char) : JM JVal :=
  if s.head? = some (Char.ofNat 0xfeff) then .error (.std "Unexpected UTF-8 BOM (decode using utf-8-sig)")
  else match scanOnce int16 (2 * s.length + 2) (skipWs s) with
    | .error .stop => .error (.std "Expecting value")
    | .error e => .error e
    | .ok (v, r) => if skipWs r = [] then .ok v else .error (.std "Extra data")

end CfnLint
