import Verif.Model.Format
import Mathlib.Data.List.Forall2
import Verif.Spec.Json
/-
What machine readable output must say, in terms of findings and of JSON values; of the model only the types are used.
-/
namespace CfnLint.Spec

/-- the code points of a text -/
def textOf (s : String) : JText := s.toList.map (fun c => c.toNat)

/-- the text starts with a line break: carriage returns and a line feed -/
def StartsBreak (s : List Char) : Prop := ∃ k r, s = List.replicate k '\r' ++ '\n' :: r

/-- one or more line breaks -/
inductive Breaks : List Char → Prop
  | one (k : Nat) : Breaks (List.replicate k '\r' ++ ['\n'])
  | more (k : Nat) {b} : Breaks b → Breaks (List.replicate k '\r' ++ '\n' :: b)

/-- `Unbroken s t`: `t` is `s` with each run of line breaks turned into one blank -/
inductive Unbroken : List Char → List Char → Prop
  | nil : Unbroken [] []
  | char {c s t} : ¬ StartsBreak (c :: s) → Unbroken s t → Unbroken (c :: s) (c :: t)
  | breaks {b s t} : Breaks b → ¬ StartsBreak s → Unbroken s t → Unbroken (b ++ s) (' ' :: t)

/-- `Lines out ls`: `out` consists of the lines `ls`, separated by line feeds -/
inductive Lines : List Char → List (List Char) → Prop
  | one {l} : '\n' ∉ l → Lines l [l]
  | more {l out ls} : '\n' ∉ l → Lines out ls → Lines (l ++ '\n' :: out) (l :: ls)

/-- two findings which agree in everything the parseable output shows -/
structure SameFields (f g : Finding) : Prop where
  filename : f.filename = g.filename
  line : f.line = g.line
  col : f.col = g.col
  lineEnd : f.lineEnd = g.lineEnd
  colEnd : f.colEnd = g.colEnd
  id : f.rule.id = g.rule.id
  message : ∃ m n t, f.message = .text m ∧ g.message = .text n ∧ Unbroken m.toList t ∧ Unbroken n.toList t

/-- the value read down a path of member names -/
inductive Reads : JVal → List String → JVal → Prop
  | here (v) : Reads v [] v
  | member {kvs k y p x} : (textOf k, y) ∈ kvs → (kvs.map Prod.fst).Nodup → Reads y p x → Reads (.obj kvs) (k :: p) x

/-- an object with exactly these members -/
def HasMembers (v : JVal) (ks : List String) : Prop :=
  ∃ kvs, v = .obj kvs ∧ (kvs.map Prod.fst).Nodup ∧ ∀ k, k ∈ kvs.map Prod.fst ↔ k ∈ ks.map textOf

/-- the name of the level of a rule -/
def LevelName (id : String) (name : String) : Prop :=
  ∃ c r, id.toList = c :: r ∧
    ((c ∈ ['e', 'E'] ∧ name = "Error") ∨ (c ∈ ['w', 'W'] ∧ name = "Warning") ∨
      (c ∈ ['i', 'I'] ∧ name = "Informational") ∨ (c ∉ ['e', 'E', 'w', 'W', 'i', 'I'] ∧ name = "Unknown"))

/-- an element of a path as JSON -/
inductive PartIs : PathPart → JVal → Prop
  | key (s) : PartIs (.key s) (.str (textOf s))
  | index (i) : PartIs (.index i) (.int i)

/-- `v` is the record of the finding `f` -/
structure IsRecord (f : Finding) (v : JVal) : Prop where
  members : HasMembers v ["Filename", "Level", "Location", "Message", "Rule"]
  filename : Reads v ["Filename"] (.str (textOf f.filename))
  level : ∃ n, LevelName f.rule.id n ∧ Reads v ["Level"] (.str (textOf n))
  id : Reads v ["Rule", "Id"] (.str (textOf f.rule.id))
  description : Reads v ["Rule", "Description"] (.str (textOf f.description))
  shortdesc : Reads v ["Rule", "ShortDescription"] (.str (textOf f.shortdesc))
  source : Reads v ["Rule", "Source"] (.str (textOf f.source))
  startLine : Reads v ["Location", "Start", "LineNumber"] (.int f.line)
  startCol : Reads v ["Location", "Start", "ColumnNumber"] (.int f.col)
  endLine : Reads v ["Location", "End", "LineNumber"] (.int f.lineEnd)
  endCol : Reads v ["Location", "End", "ColumnNumber"] (.int f.colEnd)
  path : (f.path = none ∧ Reads v ["Location", "Path"] .null) ∨
    ∃ ps xs, f.path = some ps ∧ List.Forall₂ PartIs ps xs ∧ Reads v ["Location", "Path"] (.arr xs)
  message : (∃ m, f.message = .text m ∧ Reads v ["Message"] (.str (textOf m))) ∨
    ∃ cls fields x, f.message = .object cls fields ∧ Reads v ["Message", "__" ++ cls ++ "__"] x

end CfnLint.Spec
