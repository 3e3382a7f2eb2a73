import Verif.Spec.Json
import Verif.Model.JsonMarks
/-
Where the pieces of a JSON text stand: the grammar of Spec/Json once more, now relating
the text of a piece *and the text before it* to a value with marks.  Only the types of
values are shared with the model.
-/
namespace CfnLint.Spec

/-- The number of the line on which a text stands, counted from 0: `p` is what precedes. -/
def row (p : List Char) : Nat := p.count '\n'

/-- The column at which a text stands, counted from 0. -/
def column (p : List Char) : Nat := (p.reverse.takeWhile (· != '\n')).length

/-- Lines from 0 and columns from 1: the span between two places. -/
def area (p q : List Char) : Span := ⟨row p, column p + 1, row q, column q + 1⟩

/-- The words JavaScript has and JSON has not. -/
def notJson : List (List Char × JVal) :=
  [("NaN".toList, .flt "NaN".toList), ("Infinity".toList, .flt "Infinity".toList),
   ("-Infinity".toList, .flt "-Infinity".toList)]

/-- A literal, a number, or one of the words above. -/
def Word (s : List Char) (v : JVal) : Prop :=
  (Gram s (.value v) ∧ (∀ vs, v ≠ .arr vs) ∧ (∀ kvs, v ≠ .obj kvs) ∧ ∀ t, v ≠ .str t) ∨ (s, v) ∈ notJson

/-- The characters between the quotes of a string, whatever the escapes stand for. -/
inductive Body : List Char → Prop
  | nil : Body []
  | plain {c s} : c ≠ '"' → c ≠ '\\' → 0x20 ≤ c.toNat → Body s → Body (c :: s)
  | short {e s} : e ≠ 'u' → Body s → Body ('\\' :: e :: s)
  | unit {a b c d s} : Body s → Body ('\\' :: 'u' :: a :: b :: c :: d :: s)

/-- What a piece of text can denote, with marks. -/
inductive MNode where
  | value (v : JMVal)
  | items (vs : List JMVal)
  | members (kvs : List ((JText × Span) × JMVal))

/-- `Marks Str p s n`: the text `s`, preceded by `p`, denotes `n`.  `Str` says which
characters between quotes denote which string.

* A key is marked from its opening quote, and its mark ends as many characters further on
  as the string it denotes is long.
* An object and a list are marked from behind their opening bracket to behind their closing
  bracket. -/
inductive Marks (Str : List Char → JText → Prop) : List Char → List Char → MNode → Prop
  | word {p s v} : Word s v → Marks Str p s (.value (.atom v))
  | string {p s t} : Str s t → Marks Str p ('"' :: (s ++ ['"'])) (.value (.atom (.str t)))
  | emptyArr {p w} : Blank w →
      Marks Str p ('[' :: (w ++ [']'])) (.value (.arr (area (p ++ ['[']) (p ++ '[' :: (w ++ [']']))) []))
  | arr {p s vs} : Marks Str (p ++ ['[']) s (.items vs) →
      Marks Str p ('[' :: (s ++ [']'])) (.value (.arr (area (p ++ ['[']) (p ++ '[' :: (s ++ [']']))) vs))
  | emptyObj {p w} : Blank w →
      Marks Str p ('{' :: (w ++ ['}'])) (.value (.obj (area (p ++ ['{']) (p ++ '{' :: (w ++ ['}']))) []))
  | obj {p s kvs} : Marks Str (p ++ ['{']) s (.members kvs) →
      Marks Str p ('{' :: (s ++ ['}'])) (.value (.obj (area (p ++ ['{']) (p ++ '{' :: (s ++ ['}']))) kvs))
  | item {p w s w' v} : Blank w → Marks Str (p ++ w) s (.value v) → Blank w' →
      Marks Str p (w ++ (s ++ w')) (.items [v])
  | items {p w s w' v r vs} : Blank w → Marks Str (p ++ w) s (.value v) → Blank w' →
      Marks Str (p ++ (w ++ (s ++ (w' ++ [','])))) r (.items vs) →
      Marks Str p (w ++ (s ++ (w' ++ ',' :: r))) (.items (v :: vs))
  | member {p w k t w1 w2 s v w3} : Blank w → Str k t → Blank w1 → Blank w2 →
      Marks Str (p ++ (w ++ '"' :: (k ++ '"' :: (w1 ++ ':' :: w2)))) s (.value v) → Blank w3 →
      Marks Str p (w ++ '"' :: (k ++ '"' :: (w1 ++ ':' :: (w2 ++ (s ++ w3)))))
        (.members [((t, area (p ++ w) (p ++ (w ++ ('"' :: k).take t.length))), v)])
  | members {p w k t w1 w2 s v w3 r kvs} : Blank w → Str k t → Blank w1 → Blank w2 →
      Marks Str (p ++ (w ++ '"' :: (k ++ '"' :: (w1 ++ ':' :: w2)))) s (.value v) → Blank w3 →
      Marks Str (p ++ (w ++ '"' :: (k ++ '"' :: (w1 ++ ':' :: (w2 ++ (s ++ (w3 ++ [','])))))))
        r (.members kvs) →
      Marks Str p (w ++ '"' :: (k ++ '"' :: (w1 ++ ':' :: (w2 ++ (s ++ (w3 ++ ',' :: r))))))
        (.members (((t, area (p ++ w) (p ++ (w ++ ('"' :: k).take t.length))), v) :: kvs))

/-- `s` is a document denoting the marked value `v`. -/
def MarkedDocument (Str : List Char → JText → Prop) (s : List Char) (v : JMVal) : Prop :=
  ∃ w s' w', Blank w ∧ Blank w' ∧ Marks Str w s' (.value v) ∧ s = w ++ (s' ++ w')

/-- `Within x v`: `x` is `v` or a value somewhere inside `v`. -/
inductive Within : JMVal → JMVal → Prop
  | here (v) : Within v v
  | item {x y m vs} : y ∈ vs → Within x y → Within x (.arr m vs)
  | member {x k y m kvs} : (k, y) ∈ kvs → Within x y → Within x (.obj m kvs)

/-- A member with the key `k` and its mark stands somewhere in `v`. -/
def KeyWithin (v : JMVal) (t : JText) (m : Span) : Prop :=
  ∃ o kvs x, Within (.obj o kvs) v ∧ ((t, m), x) ∈ kvs

/-- The strings of JSON never run over the end of a line, and denote at most as many
characters as they have. -/
def OneLine (Str : List Char → JText → Prop) : Prop :=
  ∀ k t, Str k t → '\n' ∉ k ∧ t.length ≤ k.length

end CfnLint.Spec

namespace CfnLint.Spec

/-- No two of the members have one key, and none is null. -/
def Sound (kvs : List ((JText × Span) × JMVal)) : Prop :=
  (kvs.map (fun kv => kv.1.1)).Nodup ∧ ∀ kv ∈ kvs, kv.2 ≠ .atom .null

/-- The first member an object may not have: a null, or one whose key was there before. -/
def Offends (kvs : List ((JText × Span) × JMVal)) (k : JText) (m : Span) (msg : String) : Prop :=
  ∃ before v after, kvs = before ++ ((k, m), v) :: after ∧ Sound before ∧
    ((v = .atom .null ∧ msg = "Null Error") ∨
      (v ≠ .atom .null ∧ k ∈ before.map (fun kv => kv.1.1) ∧ msg = "Duplicate found"))

/-- Somewhere in the document stands an object with a member it may not have, and its last
member has the key `key` and the mark `last`. -/
def BadObject (Str : List Char → JText → Prop) (doc : List Char) (k : JText) (m : Span) (msg : String)
    (key : JText) (last : Span) : Prop :=
  ∃ p s r kvs, doc = p ++ '{' :: (s ++ '}' :: r) ∧ Marks Str (p ++ ['{']) s (.members kvs) ∧
    Offends kvs k m msg ∧ ∃ before v, kvs = before ++ [((key, last), v)]

end CfnLint.Spec

namespace CfnLint.Spec

/-- `c` is insignificant whitespace. -/
def BlankChar (c : Char) : Prop := c = ' ' ∨ c = '\t' ∨ c = '\n' ∨ c = '\r'

/-- The text is over, or goes on with something that is neither blank nor one of `cs`. -/
def GoesOn (rest cs : List Char) : Prop := ∀ c, rest.head? = some c → ¬ BlankChar c ∧ c ∉ cs

/-- What can be seen at the place of an error with a given message; `rest` is the text of the document
`doc` from there on. -/
def Shows (doc : List Char) (msg : String) (rest : List Char) : Prop :=
  (msg = "Unterminated string starting at" → rest.head? = some '"') ∧
  (msg = "Invalid control character" → ∃ c : Char, c.toNat < 0x20 ∧ c :: rest <:+ doc) ∧
  (msg = "Invalid \\escape" → '\\' :: rest <:+ doc ∧ ∃ e r, rest = e :: r ∧ e ≠ 'u' ∧ ∀ u, (e, u) ∉ shortEscapes) ∧
  (msg = "Invalid \\uXXXX escape" → '\\' :: rest <:+ doc ∧ rest.head? = some 'u') ∧
  (msg = "Expecting property name enclosed in double quotes" → GoesOn rest ['"']) ∧
  (msg = "Expecting ':' delimiter" → GoesOn rest [':']) ∧
  (msg = "Expecting ',' delimiter" → GoesOn rest [',', ']'] ∨ GoesOn rest [',', '}']) ∧
  (msg = "Expecting value" → GoesOn rest ['"', '{', '[']) ∧
  (msg = "Extra data" → rest ≠ [] ∧ GoesOn rest []) ∧
  (msg = "Null Error" ∨ msg = "Duplicate found" → rest.head? = some '"')

end CfnLint.Spec

namespace CfnLint.Spec

/-- `MWithin x v`: the node `x` is `v` or stands somewhere inside `v`. -/
inductive MWithin : MVal → MVal → Prop
  | here (v) : MWithin v v
  | item {x y m vs} : y ∈ vs → MWithin x y → MWithin x (.list m vs)
  | member {x k y m kvs} : (k, y) ∈ kvs → MWithin x y → MWithin x (.dict m kvs)

end CfnLint.Spec
