import Verif.Model.Json
/-
The JSON grammar (RFC 8259), written as a relation between texts and values, and what
a template may contain.  Only the type of values is shared with the model.
-/
namespace CfnLint.Spec

/-- Insignificant whitespace (RFC 8259, section 2). -/
def Blank (w : List Char) : Prop := ∀ c ∈ w, c = ' ' ∨ c = '\t' ∨ c = '\n' ∨ c = '\r'

/-- The two-character escapes (RFC 8259, section 7) and the code points they stand for. -/
def shortEscapes : List (Char × Nat) :=
  [('"', 0x22), ('\\', 0x5c), ('/', 0x2f), ('b', 0x08), ('f', 0x0c), ('n', 0x0a),
   ('r', 0x0d), ('t', 0x09)]

/-- The value of a hexadecimal digit. -/
inductive HexDigit : Char → Nat → Prop
  | dec (n : Nat) (h : n < 10) : HexDigit (Char.ofNat (48 + n)) n
  | upper (n : Nat) (h : n < 6) : HexDigit (Char.ofNat (65 + n)) (10 + n)
  | lower (n : Nat) (h : n < 6) : HexDigit (Char.ofNat (97 + n)) (10 + n)

/-- Four hexadecimal digits and the number they denote. -/
inductive Hex4 : List Char → Nat → Prop
  | mk {a b c d : Char} {i j k l : Nat} :
      HexDigit a i → HexDigit b j → HexDigit c k → HexDigit d l →
      Hex4 [a, b, c, d] (((i * 16 + j) * 16 + k) * 16 + l)

def HighSurrogate (u : Nat) : Prop := 0xd800 ≤ u ∧ u ≤ 0xdbff
def LowSurrogate (u : Nat) : Prop := 0xdc00 ≤ u ∧ u ≤ 0xdfff

/-- `\uXXXX` of a low surrogate stands at the front of the text. -/
def StartsLow (s : List Char) : Prop :=
  ∃ h u r, s = '\\' :: 'u' :: (h ++ r) ∧ Hex4 h u ∧ LowSurrogate u

/-- The characters between the quotes of a string and the code points they denote. -/
inductive Chars : List Char → JText → Prop
  | nil : Chars [] []
  | plain {c s t} : c ≠ '"' → c ≠ '\\' → 0x20 ≤ c.toNat → Chars s t → Chars (c :: s) (c.toNat :: t)
  | short {e u s t} : (e, u) ∈ shortEscapes → Chars s t → Chars ('\\' :: e :: s) (u :: t)
  | unit {h u s t} : Hex4 h u → ¬ (HighSurrogate u ∧ StartsLow s) → Chars s t →
      Chars ('\\' :: 'u' :: (h ++ s)) (u :: t)
  | pair {h u h' u' s t} : Hex4 h u → HighSurrogate u → Hex4 h' u' → LowSurrogate u' → Chars s t →
      Chars ('\\' :: 'u' :: (h ++ '\\' :: 'u' :: (h' ++ s)))
        ((0x10000 + (u - 0xd800) * 0x400 + (u' - 0xdc00)) :: t)

/-- One or more decimal digits. -/
def Digits (s : List Char) : Prop := s ≠ [] ∧ ∀ c ∈ s, '0' ≤ c ∧ c ≤ '9'

/-- The number a list of decimal digits denotes: most significant first. -/
def decimal : List Char → Nat
  | [] => 0
  | c :: r => (c.toNat - '0'.toNat) * 10 ^ r.length + decimal r

/-- `int = zero / ( digit1-9 *DIGIT )`. -/
def IntPart (s : List Char) : Prop := Digits s ∧ (s = ['0'] ∨ s.head? ≠ some '0')

/-- `frac = decimal-point 1*DIGIT`, or nothing. -/
def FracPart (s : List Char) : Prop := s = [] ∨ ∃ d, Digits d ∧ s = '.' :: d

/-- `exp = e [ minus / plus ] 1*DIGIT`, or nothing. -/
def ExpPart (s : List Char) : Prop :=
  s = [] ∨ ∃ e sg d, (e = 'e' ∨ e = 'E') ∧ (sg = [] ∨ sg = ['+'] ∨ sg = ['-']) ∧ Digits d ∧
    s = e :: (sg ++ d)

/-- `number = [ minus ] int [ frac ] [ exp ]`; without fraction and exponent it is an
integer, otherwise a float given by its text. -/
inductive Number : List Char → JVal → Prop
  | nat {s} : IntPart s → Number s (.int (decimal s))
  | neg {s} : IntPart s → Number ('-' :: s) (.int (-(decimal s : Int)))
  | flt {sg s f e} : (sg = [] ∨ sg = ['-']) → IntPart s → FracPart f → ExpPart e → f ++ e ≠ [] →
      Number (sg ++ s ++ f ++ e) (.flt (sg ++ s ++ f ++ e))

/-- What a piece of JSON text can denote. -/
inductive Node where
  | value (v : JVal)
  | items (vs : List JVal)
  | members (kvs : List (JText × JVal))

/-- The grammar: `Gram s n` says that the text `s` is a value, a comma separated
list of items (with surrounding blanks), or of members, denoting `n`. -/
inductive Gram : List Char → Node → Prop
  | null : Gram ['n', 'u', 'l', 'l'] (.value .null)
  | true : Gram ['t', 'r', 'u', 'e'] (.value (.bool true))
  | false : Gram ['f', 'a', 'l', 's', 'e'] (.value (.bool false))
  | number {s v} : Number s v → Gram s (.value v)
  | string {s t} : Chars s t → Gram ('"' :: (s ++ ['"'])) (.value (.str t))
  | emptyArr {w} : Blank w → Gram ('[' :: (w ++ [']'])) (.value (.arr []))
  | arr {s vs} : Gram s (.items vs) → Gram ('[' :: (s ++ [']'])) (.value (.arr vs))
  | emptyObj {w} : Blank w → Gram ('{' :: (w ++ ['}'])) (.value (.obj []))
  | obj {s kvs} : Gram s (.members kvs) → Gram ('{' :: (s ++ ['}'])) (.value (.obj kvs))
  | item {w s w' v} : Blank w → Gram s (.value v) → Blank w' → Gram (w ++ (s ++ w')) (.items [v])
  | items {w s w' v r vs} : Blank w → Gram s (.value v) → Blank w' → Gram r (.items vs) →
      Gram (w ++ (s ++ (w' ++ ',' :: r))) (.items (v :: vs))
  | member {w k t w1 w2 s v w3} : Blank w → Chars k t → Blank w1 → Blank w2 → Gram s (.value v) →
      Blank w3 →
      Gram (w ++ '"' :: (k ++ '"' :: (w1 ++ ':' :: (w2 ++ (s ++ w3))))) (.members [(t, v)])
  | members {w k t w1 w2 s v w3 r kvs} : Blank w → Chars k t → Blank w1 → Blank w2 →
      Gram s (.value v) → Blank w3 → Gram r (.members kvs) →
      Gram (w ++ '"' :: (k ++ '"' :: (w1 ++ ':' :: (w2 ++ (s ++ (w3 ++ ',' :: r))))))
        (.members ((t, v) :: kvs))

/-- `s` is a JSON document denoting `v`. -/
def Document (s : List Char) (v : JVal) : Prop :=
  ∃ w s' w', Blank w ∧ Blank w' ∧ Gram s' (.value v) ∧ s = w ++ (s' ++ w')

/-- `Inside x v`: `x` is `v` or a value somewhere inside `v`. -/
inductive Inside : JVal → JVal → Prop
  | here (v) : Inside v v
  | item {x y vs} : y ∈ vs → Inside x y → Inside x (.arr vs)
  | member {x k y kvs} : (k, y) ∈ kvs → Inside x y → Inside x (.obj kvs)

/-- Some object of the document has two members of one key. -/
def DuplicateKey (v : JVal) : Prop :=
  ∃ kvs, Inside (.obj kvs) v ∧ ¬ (kvs.map Prod.fst).Nodup

/-- Some object of the document has a member whose value is null. -/
def NullMember (v : JVal) : Prop :=
  ∃ kvs k, Inside (.obj kvs) v ∧ (k, JVal.null) ∈ kvs

/-- Python's `int(text, 16)` reads four hexadecimal digits as their number. -/
def ReadsHex (int16 : List Char → Option Int) : Prop :=
  ∀ h u, Hex4 h u → int16 h = some (u : Int)

/-- `int(text, 16)` reads four characters only when they are hexadecimal digits. Python's reads more. -/
def OnlyHex (int16 : List Char → Option Int) : Prop :=
  ∀ h u, h.length = 4 → int16 h = some u → ∃ n : Nat, u = n ∧ Hex4 h n

/-- No number of the document is one of the words `NaN`, `Infinity` and `-Infinity`, which are not JSON. -/
def Finite (v : JVal) : Prop :=
  ∀ t, Inside (.flt t) v → t ∉ ["NaN".toList, "Infinity".toList, "-Infinity".toList]

/-! A serialiser, in the style of `json.dumps`. -/

/-- A hexadecimal digit. -/
def hexChar (n : Nat) : Char := if n < 10 then Char.ofNat (48 + n) else Char.ofNat (97 + (n - 10))

/-- `\uXXXX`. -/
def dumpUnit (u : Nat) : List Char :=
  ['\\', 'u', hexChar (u / 4096), hexChar (u / 256 % 16), hexChar (u / 16 % 16), hexChar (u % 16)]

/-- One code point: a short escape, itself, one or two `\uXXXX`. -/
def dumpCode (u : Nat) : List Char :=
  match shortEscapes.find? (fun p => decide (p.2 = u ∧ p.1 ≠ '/')) with
  | some (e, _) => ['\\', e]
  | none =>
    if 0x20 ≤ u ∧ u < 0x7f then [Char.ofNat u]
    else if u < 0x10000 then dumpUnit u
    else dumpUnit (0xd800 + (u - 0x10000) / 0x400) ++ dumpUnit (0xdc00 + (u - 0x10000) % 0x400)

def dumpText (t : JText) : List Char := t.flatMap dumpCode

/-- A natural number in decimal. -/
def dumpNat (n : Nat) : List Char :=
  if n < 10 then [Char.ofNat (48 + n)] else dumpNat (n / 10) ++ [Char.ofNat (48 + n % 10)]
decreasing_by omega

def dumpInt : Int → List Char
  | .ofNat n => dumpNat n
  | .negSucc n => '-' :: dumpNat (n + 1)

mutual
/-- The text of a value. -/
def dump : JVal → List Char
  | .null => ['n', 'u', 'l', 'l']
  | .bool true => ['t', 'r', 'u', 'e']
  | .bool false => ['f', 'a', 'l', 's', 'e']
  | .int i => dumpInt i
  | .flt t => t
  | .str t => '"' :: (dumpText t ++ ['"'])
  | .arr vs => '[' :: (dumpItems vs ++ [']'])
  | .obj kvs => '{' :: (dumpMembers kvs ++ ['}'])

def dumpItems : List JVal → List Char
  | [] => []
  | v :: vs => dump v ++ (match vs with
    | [] => []
    | _ :: _ => ',' :: ' ' :: dumpItems vs)

def dumpMembers : List (JText × JVal) → List Char
  | [] => []
  | (k, v) :: kvs => '"' :: (dumpText k ++ '"' :: ':' :: ' ' :: (dump v ++ (match kvs with
    | [] => []
    | _ :: _ => ',' :: ' ' :: dumpMembers kvs)))
end

/-- A text of Unicode scalar values. -/
def ScalarText (t : JText) : Prop := ∀ u ∈ t, u < 0xd800 ∨ (0xe000 ≤ u ∧ u < 0x110000)

/-- A JSON value: all text consists of scalar values and every float is written as a
JSON number with a fraction or an exponent. -/
def Value (v : JVal) : Prop :=
  (∀ t, Inside (.str t) v → ScalarText t) ∧ (∀ t, Inside (.flt t) v → Number t (.flt t)) ∧
  (∀ kvs, Inside (.obj kvs) v → ∀ p ∈ kvs, ScalarText p.1)

end CfnLint.Spec
