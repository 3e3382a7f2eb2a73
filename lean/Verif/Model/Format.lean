import Verif.Model.Rules
import Verif.Model.Json
/-
Model of the parseable, the JSON, the pretty and the JUnit output, formatters/__init__.py:33-53, 71-248, and of the parts of
Python's `json.encoder` used by `json.dumps` with an indentation of four and sorted keys. Of the JUnit output the test cases
are modelled, not their serialisation by the `junit_xml` package.

A position of a finding is four integers. Texts hold no lone surrogates (`String`). Colours are not modelled: the output
is taken not to be a terminal.
-/
namespace CfnLint

/-- the message of a finding: a text, or the exception object which `decode` puts there for a `YAMLError`
(decode/__init__.py:90-91), of which the output reads the class name and the fields `__dict__` -/
inductive Message where
  | text (s : String)
  | object (cls : String) (fields : List (JText × JVal))
deriving Inhabited

/-- an element of a path -/
inductive PathPart where
  | key (s : String)
  | index (i : Int)
deriving DecidableEq, Repr, Inhabited

/-- `Match` as the formatters read it, rules/__init__.py:443-460; `path` comes from the `RuleMatch` and is missing for
findings of the decoder -/
structure Finding where
  line : Int
  col : Int
  lineEnd : Int
  colEnd : Int
  filename : String
  rule : RuleInfo
  description : String
  shortdesc : String
  source : String
  message : Message
  path : Option (List PathPart)
deriving Inhabited

/-- the decimal digits of a natural number -/
def natText (n : Nat) : List Char :=
  if n < 10 then [Char.ofNat (48 + n)] else natText (n / 10) ++ [Char.ofNat (48 + n % 10)]
decreasing_by omega

/-- `str` of an integer -/
def intText : Int → List Char
  | .ofNat n => natText n
  | .negSucc n => '-' :: natText (n + 1)

/-! ### Parseable output -/

/-- one round of the pattern `\r*\n`: what follows it -/
def lineBreak (s : List Char) : Option (List Char) :=
  match s.dropWhile (· == '\r') with
  | c :: r => if c = '\n' then some r else none
  | [] => none

theorem lineBreak_length {s r : List Char} (h : lineBreak s = some r) : r.length < s.length := by
  unfold lineBreak at h
  have hl := (List.dropWhile_sublist (· == '\r') (l := s)).length_le
  split at h
  · rename_i c r' he
    rw [he] at hl
    split at h
    · cases h; simp at hl; omega
    · cases h
  · cases h

/-- what follows the longest match of `(\r*\n)*` -/
def lineBreaks (s : List Char) : List Char :=
  match _h : lineBreak s with
  | some r => lineBreaks r
  | none => s
termination_by s.length
decreasing_by exact lineBreak_length _h

theorem lineBreaks_length (s : List Char) : (lineBreaks s).length ≤ s.length := by
  unfold lineBreaks
  split
  · rename_i r h
    have := lineBreak_length h
    have := lineBreaks_length r
    omega
  · exact Nat.le_refl _
termination_by s.length

/-- `re.sub(r'(\r*\n)+', ' ', s)`, formatters/__init__.py:190 -/
def flatten (s : List Char) : List Char :=
  match s with
  | [] => []
  | c :: r =>
    match _h : lineBreak (c :: r) with
    | some r' => ' ' :: flatten (lineBreaks r')
    | none => c :: flatten r
termination_by s.length
decreasing_by
  · have := lineBreak_length _h
    have := lineBreaks_length r'
    simp at *
    omega
  · simp

/-- `ParseableFormatter._format`, formatters/__init__.py:180-191. `re.sub` of an object raises `TypeError`. -/
def parseableLine (f : Finding) : PyM (List Char) :=
  match f.message with
  | .object _ _ => .error (.typeError "expected string or bytes-like object")
  | .text m =>
    .ok (f.filename.toList ++ ':' :: intText f.line ++ ':' :: intText f.col ++ ':' :: intText f.lineEnd ++
      ':' :: intText f.colEnd ++ ':' :: f.rule.id.toList ++ ':' :: flatten m.toList)

/-- the loop over the findings, formatters/__init__.py:48-51 -/
def parseableLines : List Finding → PyM (List (List Char))
  | [] => .ok []
  | f :: fs =>
    match parseableLine f with
    | .error e => .error e
    | .ok l =>
      match parseableLines fs with
      | .error e => .error e
      | .ok ls => .ok (l :: ls)

/-- `'\n'.join(lines)` -/
def joinLines : List (List Char) → List Char
  | [] => []
  | [l] => l
  | l :: ls => l ++ '\n' :: joinLines ls

/-- `print_matches` of the parseable formatter, formatters/__init__.py:39-53: `None` without findings -/
def parseable (fs : List Finding) : PyM (Option (List Char)) :=
  match fs with
  | [] => .ok none
  | _ =>
    match parseableLines fs with
    | .error e => .error e
    | .ok ls => .ok (some (joinLines ls))

/-! ### JSON output -/

/-- the code points of a text -/
def codes (s : String) : JText := s.toList.map Char.toNat

/-- `str.capitalize` of the severity, formatters/__init__.py:149 -/
def levelName : Severity → String
  | .informational => "Informational"
  | .error => "Error"
  | .warning => "Warning"
  | .unknown => "Unknown"

def pathPartJson : PathPart → JVal
  | .key s => .str (codes s)
  | .index i => .int i

/-- the value of `'Path'` -/
def pathJson : Option (List PathPart) → JVal
  | none => .null
  | some ps => .arr (ps.map pathPartJson)

/-- the value of `'Message'`: for an object what `default` returns, formatters/__init__.py:154 -/
def messageJson : Message → JVal
  | .text s => .str (codes s)
  | .object cls fields => .obj [(codes "__" ++ codes cls ++ codes "__", .obj fields)]

/-- `CustomEncoder.default` of a finding, formatters/__init__.py:128-152 -/
def record (f : Finding) : PyM JVal :=
  match severity f.rule with
  | .error e => .error e
  | .ok level =>
    .ok (.obj
      [(codes "Rule", .obj
        [(codes "Id", .str (codes f.rule.id)), (codes "Description", .str (codes f.description)),
         (codes "ShortDescription", .str (codes f.shortdesc)), (codes "Source", .str (codes f.source))]),
       (codes "Location", .obj
        [(codes "Start", .obj [(codes "ColumnNumber", .int f.col), (codes "LineNumber", .int f.line)]),
         (codes "End", .obj [(codes "ColumnNumber", .int f.colEnd), (codes "LineNumber", .int f.lineEnd)]),
         (codes "Path", pathJson f.path)]),
       (codes "Level", .str (codes (levelName level))),
       (codes "Message", messageJson f.message),
       (codes "Filename", .str (codes f.filename))])

def records : List Finding → PyM (List JVal)
  | [] => .ok []
  | f :: fs =>
    match record f with
    | .error e => .error e
    | .ok v =>
      match records fs with
      | .error e => .error e
      | .ok vs => .ok (v :: vs)

/-- `<=` of strings -/
def textLe : JText → JText → Bool
  | [], _ => true
  | _ :: _, [] => false
  | a :: s, b :: t => if a < b then true else if b < a then false else textLe s t

/-- insertion into a list sorted by key -/
def insertMember (p : JText × JVal) : List (JText × JVal) → List (JText × JVal)
  | [] => [p]
  | q :: r => if textLe p.1 q.1 then p :: q :: r else q :: insertMember p r

mutual
/-- `sorted(dct.items())` at every object, as `sort_keys` asks -/
def sortKeys : JVal → JVal
  | .arr vs => .arr (sortItems vs)
  | .obj kvs => .obj (sortMembers kvs)
  | .null => .null
  | .bool b => .bool b
  | .int i => .int i
  | .flt t => .flt t
  | .str s => .str s

def sortItems : List JVal → List JVal
  | [] => []
  | v :: vs => sortKeys v :: sortItems vs

def sortMembers : List (JText × JVal) → List (JText × JVal)
  | [] => []
  | (k, v) :: kvs => insertMember (k, sortKeys v) (sortMembers kvs)
end

/-- a digit of `'{0:04x}'` -/
def hexDigit (n : Nat) : Char := if n < 10 then Char.ofNat (48 + n) else Char.ofNat (87 + n)

/-- `'\\u{0:04x}'.format(n)` of `json.encoder` -/
def unicodeEscape (n : Nat) : List Char :=
  ['\\', 'u', hexDigit (n / 4096), hexDigit (n / 256 % 16), hexDigit (n / 16 % 16), hexDigit (n % 16)]

/-- one character in `py_encode_basestring_ascii` -/
def encodeChar (u : Nat) : List Char :=
  if u = 0x22 then ['\\', '"'] else
  if u = 0x5c then ['\\', '\\'] else
  if u = 0x0a then ['\\', 'n'] else
  if u = 0x0d then ['\\', 'r'] else
  if u = 0x09 then ['\\', 't'] else
  if u = 0x0c then ['\\', 'f'] else
  if u = 0x08 then ['\\', 'b'] else
  if 0x20 ≤ u ∧ u ≤ 0x7e then [Char.ofNat u] else
  if u < 0x10000 then unicodeEscape u
  else unicodeEscape (0xd800 + (u - 0x10000) / 1024 % 1024) ++ unicodeEscape (0xdc00 + (u - 0x10000) % 1024)

/-- `py_encode_basestring_ascii` -/
def encodeText (t : JText) : List Char := '"' :: (t.flatMap encodeChar ++ ['"'])

/-- a line break and the indentation of a level -/
def newline (n : Nat) : List Char := '\n' :: List.replicate (4 * n) ' '

mutual
/-- `_iterencode` of `json.encoder` at a level of indentation, separators `','` and `': '` -/
def encode (n : Nat) : JVal → List Char
  | .null => ['n', 'u', 'l', 'l']
  | .bool true => ['t', 'r', 'u', 'e']
  | .bool false => ['f', 'a', 'l', 's', 'e']
  | .int i => intText i
  | .flt t => t
  | .str t => encodeText t
  | .arr [] => ['[', ']']
  | .arr (v :: vs) => '[' :: (newline (n + 1) ++ (encode (n + 1) v ++ (encodeItems (n + 1) vs ++ (newline n ++ [']']))))
  | .obj [] => ['{', '}']
  | .obj ((k, v) :: kvs) =>
    '{' :: (newline (n + 1) ++ (encodeText k ++ ':' :: ' ' :: (encode (n + 1) v ++
      (encodeMembers (n + 1) kvs ++ (newline n ++ ['}'])))))

/-- the items after the first -/
def encodeItems (n : Nat) : List JVal → List Char
  | [] => []
  | v :: vs => ',' :: (newline n ++ (encode n v ++ encodeItems n vs))

/-- the members after the first -/
def encodeMembers (n : Nat) : List (JText × JVal) → List Char
  | [] => []
  | (k, v) :: kvs => ',' :: (newline n ++ (encodeText k ++ ':' :: ' ' :: (encode n v ++ encodeMembers n kvs)))
end

/-- `print_matches` of the JSON formatter, formatters/__init__.py:155-161 -/
def jsonOutput (fs : List Finding) : PyM (List Char) :=
  match records fs with
  | .error e => .error e
  | .ok vs => .ok (encode 0 (sortKeys (.arr vs)))

/-! ### Pretty output -/

/-- `'{:n}'.format(s)`: padded on the right -/
def padRight (n : Nat) (s : List Char) : List Char := s ++ List.replicate (n - s.length) ' '

/-- `str` of a message; of an object it is opaque -/
def messageText (shown : Message → List Char) : Message → List Char
  | .text s => s.toList
  | m => shown m

/-- `PrettyFormatter._format`, formatters/__init__.py:197-205 -/
def prettyLine (shown : Message → List Char) (f : Finding) : List Char :=
  padRight 20 (intText f.line ++ ':' :: intText f.col ++ [':']) ++ padRight 10 f.rule.id.toList ++
    messageText shown f.message

/-- `itertools.groupby` by file name: the runs of equal file names -/
def groupByFile : List Finding → List (String × List Finding)
  | [] => []
  | f :: fs =>
    match groupByFile fs with
    | [] => [(f.filename, [f])]
    | (n, g) :: rest => if f.filename = n then (n, f :: g) :: rest else (f.filename, [f]) :: (n, g) :: rest

/-- the severity, `unknown` also for a rule without one (an empty id raises before) -/
def levelOf (f : Finding) : PyM Severity := severity f.rule

/-- the findings of one level, in order -/
def ofLevel (s : Severity) : List Finding → PyM (List Finding)
  | [] => .ok []
  | f :: fs =>
    match levelOf f with
    | .error e => .error e
    | .ok l =>
      match ofLevel s fs with
      | .error e => .error e
      | .ok r => .ok (if l = s then f :: r else r)

/-- the findings of one file in the order they are listed, formatters/__init__.py:236-244 -/
def byLevel (fs : List Finding) : PyM (List Finding) :=
  match ofLevel .error fs, ofLevel .warning fs, ofLevel .informational fs, ofLevel .unknown fs with
  | .ok e, .ok w, .ok i, .ok u => .ok (e ++ w ++ i ++ u)
  | .error e, _, _, _ => .error e
  | _, .error e, _, _ => .error e
  | _, _, .error e, _ => .error e
  | _, _, _, .error e => .error e

/-- `_format_matches`, formatters/__init__.py:220-248 -/
def prettyGroups (shown : Message → List Char) : List (String × List Finding) → PyM (List (List Char))
  | [] => .ok []
  | (n, g) :: rest =>
    match byLevel g with
    | .error e => .error e
    | .ok l =>
      match prettyGroups shown rest with
      | .error e => .error e
      | .ok r => .ok (n.toList :: (l.map (prettyLine shown) ++ [] :: r))

/-- the totals of the last line, formatters/__init__.py:213-217 -/
def prettyTotals (fs : List Finding) : PyM (Nat × Nat × Nat) :=
  match ofLevel .error fs, ofLevel .warning fs, ofLevel .informational fs with
  | .ok e, .ok w, .ok i => .ok (e.length, w.length, i.length)
  | .error e, _, _ => .error e
  | _, .error e, _ => .error e
  | _, _, .error e => .error e

/-! ### JUnit output -/

/-- what a test case holds -/
inductive CaseBody where
  | skipped (message : String)
  | failures (fs : List (List Char × List Char))
deriving DecidableEq, Repr, Inhabited

/-- `_failure_format`, formatters/__init__.py:74-82 -/
def failureText (shown : Message → List Char) (f : Finding) : List Char :=
  messageText shown f.message ++ " at ".toList ++ f.filename.toList ++ ':' :: intText f.line ++ ':' :: intText f.col

/-- a rule of the collection: the rule and its short description -/
structure ListedRule where
  rule : RuleInfo
  shortdesc : String
deriving DecidableEq, Repr, Inhabited

/-- the failures of one rule, formatters/__init__.py:107-112 -/
def ruleFailures (shown : Message → List Char) (id : String) (fs : List Finding) : List (List Char × List Char) :=
  (fs.filter (fun f => f.rule.id == id)).map (fun f => (failureText shown f, messageText shown f.message))

/-- the loop over `rules.all_rules`, formatters/__init__.py:90-113; `enabled` is `rules.is_rule_enabled` -/
def junitCases (shown : Message → List Char) (enabled : RuleInfo → Bool) (fs : List Finding) :
    List ListedRule → List (String × CaseBody)
  | [] => []
  | r :: rs =>
    if enabled r.rule then
      (r.rule.id ++ " " ++ r.shortdesc, .failures (ruleFailures shown r.rule.id fs)) :: junitCases shown enabled fs rs
    else if r.rule.id = "" then junitCases shown enabled fs rs
    else
      (r.rule.id ++ " " ++ r.shortdesc,
        .skipped (if r.rule.experimental then "Experimental rule - not enabled" else "Ignored rule")) ::
        junitCases shown enabled fs rs

/-- `JUnitFormatter.print_matches`, formatters/__init__.py:84-118, up to serialisation: `None` if the collection is `None` or
holds no enabled rule (`RulesCollection.__len__`). `rules` are those of the last template, __main__.py:22-40. -/
def junit (shown : Message → List Char) (enabled : RuleInfo → Bool) (all : Option (List ListedRule)) (fs : List Finding) :
    Option (List (String × CaseBody)) :=
  match all with
  | none => none
  | some rs => if (rs.filter (fun r => enabled r.rule)).isEmpty then none else some (junitCases shown enabled fs rs)

end CfnLint
