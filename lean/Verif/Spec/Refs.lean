import Verif.Spec.Template
import Verif.Model.Py
/-
Specification of references: what a `Ref` may name.
-/
namespace CfnLint.Spec

/-- the documented pseudo parameters -/
def pseudoNames : List String :=
  ["AWS::AccountId", "AWS::NotificationARNs", "AWS::NoValue", "AWS::Partition", "AWS::Region",
   "AWS::StackId", "AWS::StackName", "AWS::URLSuffix"]

/-- `m` is a module: its type ends in `::MODULE` -/
def IsModule (t : Val) (m : String) : Prop :=
  ∃ ty, At t [.str "Resources", .str m, .str "Type"] (.str ty) ∧ "::MODULE".toList <:+ ty.toList

/-- `s` names a parameter (with a type), a resource (with a type), or a pseudo parameter -/
inductive Declared (t : Val) : String → Prop
  | parameter {s ty} : At t [.str "Parameters", .str s, .str "Type"] ty → Declared t s
  | resource {s ty} : At t [.str "Resources", .str s, .str "Type"] (.str ty) → ty ≠ "" → ¬ IsModule t s → Declared t s
  | pseudo {s} : s ∈ pseudoNames → Declared t s

/-- `s` may be referred to: it is declared, or it is a resource provided by a module (modules prefix the names
of their resources with their own name) -/
def Referable (t : Val) (s : String) : Prop :=
  Declared t s ∨ ∃ m, IsModule t m ∧ m.toList <+: s.toList

/-- no character that is special in a regular expression -/
def PlainName (s : String) : Prop :=
  ∀ c ∈ s.toList, c ∉ ['.', '^', '$', '*', '+', '?', '{', '}', '[', ']', '\\', '|', '(', ')']

/-- What is assumed of `re.match`: patterns without special characters, possibly followed by `.*`, match the
strings they are a prefix of. -/
def MatchesPrefixes (rx : String → String → PyM Bool) : Prop :=
  ∀ k s, PlainName k → rx k s = .ok (decide (k.toList <+: s.toList)) ∧
    rx (k ++ ".*") s = .ok (decide (k.toList <+: s.toList))

/-- The sections are objects with plain names whose entries are objects; types of resources are strings. -/
structure SectionsOk (t : Val) : Prop where
  wf : t.WF
  top : ∃ kvs, t = .dict kvs
  params : ∀ s, At t [.str "Parameters"] s → ∃ kvs, s = .dict kvs ∧
    ∀ kv ∈ kvs, (∃ n, kv.1 = .str n ∧ PlainName n) ∧ ∃ b, kv.2 = .dict b
  resources : ∀ s, At t [.str "Resources"] s → ∃ kvs, s = .dict kvs ∧
    ∀ kv ∈ kvs, (∃ n, kv.1 = .str n ∧ PlainName n) ∧ ∃ b, kv.2 = .dict b ∧
      ∀ ty, (.str "Type", ty) ∈ b → ∃ x, ty = .str x

/-- What the name `s` refers to: its type and where it is declared. Resources win over parameters of the same name, and
pseudo parameters over both; a name that is not declared may belong to a module. -/
inductive RefersTo (t : Val) (s : String) : Val → String → Prop
  | parameter {ty} : At t [.str "Parameters", .str s, .str "Type"] ty →
      (∀ x, At t [.str "Resources", .str s, .str "Type"] (.str x) → x = "" ∨ IsModule t s) → s ∉ pseudoNames →
      RefersTo t s ty "Parameters"
  | resource {ty} : At t [.str "Resources", .str s, .str "Type"] (.str ty) → ty ≠ "" → ¬ IsModule t s → s ∉ pseudoNames →
      RefersTo t s (.str ty) "Resources"
  | pseudo : s ∈ pseudoNames → RefersTo t s (.str "Pseudo") "Pseduo"
  | module {m} : ¬ Declared t s → IsModule t m → m.toList <+: s.toList → RefersTo t s (.str "MODULE") "Resources"

end CfnLint.Spec
