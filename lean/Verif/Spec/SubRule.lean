import Verif.Model.SubRule
import Verif.Spec.Sub
import Verif.Spec.GetAtt
import Verif.Spec.CondGrammar
import Verif.Spec.Refs
/-
What may stand in the text of `Fn::Sub` and in the object of its variables.
-/
namespace CfnLint.Spec

/-- `x` is a name that stands for something in a `Fn::Sub` that defines the variables `vars` -/
inductive SubKnows (S : AttrSpecs) (t : Val) (vars : List (Key × Val)) (x : String) : Prop
  | pseudo : x ∈ pseudoNames → SubKnows S t vars x
  | resource {v} : At t [.str "Resources", .str x] v → SubKnows S t vars x
  | own {v} : (Key.str x, v) ∈ vars → SubKnows S t vars x
  | parameter {v} : At t [.str "Parameters", .str x] v → SubKnows S t vars x
  | attr {R A ty} : x = R ++ "." ++ A → '.' ∉ R.toList → HasResource t R ty → Offers S ty A → SubKnows S t vars x

/-- `x` begins with the name of a module: it may be a resource of the module or an attribute of one -/
def InsideModule (t : Val) (x : String) : Prop :=
  ∃ M ty, HasResource t M ty ∧ "::MODULE".toList <:+ ty.toList ∧ StartsAs x M

/-- `x` stands for a list: it is neither a pseudo parameter, resource nor variable of the call, and it is a parameter of a type of
lists or an attribute that is a list -/
def SubList (S : AttrSpecs) (t : Val) (vars : List (Key × Val)) (x : String) : Prop :=
  x ∉ pseudoNames ∧ (∀ v, ¬ At t [.str "Resources", .str x] v) ∧ (∀ v, (Key.str x, v) ∉ vars) ∧
  (ListParameter t x ∨
    ∃ R A ty attrs d, x = R ++ "." ++ A ∧ '.' ∉ R.toList ∧ HasResource t R ty ∧ ¬ OpenType ty ∧ dlookup ty S = some (some attrs) ∧
      (A, d) ∈ attrs ∧ d.type = some "List")

/-- what is wrong with the name `x`; with `mods` the names inside modules are not looked up -/
inductive NameFault (S : AttrSpecs) (t : Val) (mods : Prop) (vars : List (Key × Val)) (x : String) : SubKind → Prop
  | unknown : ¬ SubKnows S t vars x → ¬ (mods ∧ InsideModule t x) → NameFault S t mods vars x .unknown
  | list : SubList S t vars x → NameFault S t mods vars x .list

/-- the functions that may compute a variable -/
def variableFunctions : List String :=
  ["Fn::Base64", "Fn::FindInMap", "Fn::GetAZs", "Fn::GetAtt", "Fn::If", "Fn::ImportValue", "Fn::Join", "Fn::Select", "Fn::Sub", "Ref"]

/-- what is wrong with the `Fn::Sub`s of a template -/
inductive SubFault (S : AttrSpecs) (t : Val) (mods : Prop) : Path → SubKind → Prop
  | text {q s x k} : At t (q ++ [.str "Fn::Sub"]) (.str s) → SubVar s x → NameFault S t mods [] x k →
      SubFault S t mods (q ++ [.str "Fn::Sub"]) k
  | pair {q s m x k} : At t (q ++ [.str "Fn::Sub"]) (.list [.str s, .dict m]) → SubVar s x → NameFault S t mods m x k →
      SubFault S t mods (q ++ [.str "Fn::Sub", .int 0]) k
  | first {q a b} : At t (q ++ [.str "Fn::Sub"]) (.list [a, b]) → (∀ s, a ≠ .str s) → SubFault S t mods (q ++ [.str "Fn::Sub", .int 0]) .first
  | second {q a b} : At t (q ++ [.str "Fn::Sub"]) (.list [a, b]) → (∀ m, b ≠ .dict m) → SubFault S t mods (q ++ [.str "Fn::Sub", .int 1]) .second
  | length {q xs} : At t (q ++ [.str "Fn::Sub"]) (.list xs) → xs.length ≠ 2 → SubFault S t mods (q ++ [.str "Fn::Sub"]) .length
  | shape {q v} : At t (q ++ [.str "Fn::Sub"]) v → (∀ s, v ≠ .str s) → (∀ xs, v ≠ .list xs) →
      (∀ w, v ≠ .dict [(.str "Fn::Transform", w)]) → SubFault S t mods (q ++ [.str "Fn::Sub"]) .shape
  | function {q s m x f w} : At t (q ++ [.str "Fn::Sub"]) (.list [.str s, .dict m]) → (x, .dict [(f, w)]) ∈ m →
      (∀ g ∈ variableFunctions, f ≠ .str g) → SubFault S t mods (q ++ [.str "Fn::Sub", x]) .function
  | object {q s m x kvs} : At t (q ++ [.str "Fn::Sub"]) (.list [.str s, .dict m]) → (x, .dict kvs) ∈ m → kvs.length ≠ 1 →
      SubFault S t mods (q ++ [.str "Fn::Sub", x]) .object
  | value {q s m x xs} : At t (q ++ [.str "Fn::Sub"]) (.list [.str s, .dict m]) → (x, .list xs) ∈ m →
      SubFault S t mods (q ++ [.str "Fn::Sub", x]) .value
  | ref {q s m x n k} : At t (q ++ [.str "Fn::Sub"]) (.list [.str s, .dict m]) → (x, .dict [(.str "Ref", .str n)]) ∈ m →
      NameFault S t mods [] n k → SubFault S t mods (q ++ [.str "Fn::Sub"]) k
  | getAtt {q s m x w n k} : At t (q ++ [.str "Fn::Sub"]) (.list [.str s, .dict m]) → (x, .dict [(.str "Fn::GetAtt", w)]) ∈ m →
      (w = .str n ∨ ∃ parts : List String, w = .list (parts.map Val.str) ∧ n = dotted parts) →
      NameFault S t mods [] n k → SubFault S t mods (q ++ [.str "Fn::Sub"]) k

/-- a template whose resources and parameters are objects -/
structure PlainSections (t : Val) : Prop where
  wf : t.WF
  object : ∃ kvs, t = .dict kvs
  section_ : ∀ v, At t [.str "Resources"] v → ∃ kvs, v = .dict kvs
  resources : ∀ k v, At t [.str "Resources", k] v → ∃ kvs, v = .dict kvs
  parameters : ∀ k v, At t [.str "Parameters", k] v → ∃ kvs, v = .dict kvs

/-- a template whose resources and parameters are objects, with well-formed texts in `Fn::Sub` -/
structure SubSections (t : Val) : Prop where
  wf : t.WF
  object : ∃ kvs, t = .dict kvs
  section_ : ∀ v, At t [.str "Resources"] v → ∃ kvs, v = .dict kvs
  resources : ∀ k v, At t [.str "Resources", k] v → ∃ kvs, v = .dict kvs
  parameters : ∀ k v, At t [.str "Parameters", k] v → ∃ kvs, v = .dict kvs
  texts : ∀ q s, At t (q ++ [.str "Fn::Sub"]) (.str s) → ∃ ns, SubText s.toList ns
  pairs : ∀ q s b, At t (q ++ [.str "Fn::Sub"]) (.list [.str s, b]) → ∃ ns, SubText s.toList ns

/-- only exact names of nested stacks and custom resources -/
structure ClosedTypes (t : Val) : Prop where
  stack : ∀ R ty, HasResource t R ty → StartsAs ty "AWS::CloudFormation::Stack" → ty = "AWS::CloudFormation::Stack"
  custom : ∀ R ty, HasResource t R ty → StartsAs ty "AWS::CloudFormation::CustomResource" → ty = "AWS::CloudFormation::CustomResource"

/-- a specification without attribute `*` in which the names of maps have no dot -/
structure MapAttrs (S : AttrSpecs) : Prop where
  noStar : ∀ ty attrs d, dlookup ty S = some (some attrs) → ("*", d) ∉ attrs
  maps : ∀ ty attrs M d, dlookup ty S = some (some attrs) → (M, d) ∈ attrs → d.type = some "Map" → '.' ∉ M.toList

/-- no object of variables beside something that is no text, and references of variables are texts -/
structure SubCalls (t : Val) : Prop where
  first : ∀ q a m, At t (q ++ [.str "Fn::Sub"]) (.list [a, .dict m]) → ∃ s, a = .str s
  refs : ∀ q a m x v, At t (q ++ [.str "Fn::Sub"]) (.list [a, .dict m]) → (x, .dict [(.str "Ref", v)]) ∈ m → ∃ n, v = .str n

end CfnLint.Spec
