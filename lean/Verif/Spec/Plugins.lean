import Verif.Model.Plugins
/-
The rules that the files of a folder define.
-/
namespace CfnLint.Spec

/-- the class is a rule: it has the class of the rules among its ancestors -/
def IsRule {R : Type} (c : PyClass R) : Prop :=
  ("cfnlint", "CloudFormationLintRule") ∈ c.ancestors ∨ ("cfnlint.rules", "CloudFormationLintRule") ∈ c.ancestors

/-- `rs` are the rules of a module: one for each class that is a rule, in the order of the names -/
def Makes {R : Type} (ms : Members R) (rs : List R) : Prop :=
  ∃ cs : List (String × R), rs = cs.map Prod.snd ∧ (cs.map Prod.fst).Nodup ∧ (cs.map Prod.fst).Pairwise (· ≤ ·) ∧
    (∀ n r, (n, r) ∈ cs → ∃ c, (n, some c) ∈ ms ∧ IsRule c ∧ c.create = .ok r) ∧
    ∀ n c, (n, some c) ∈ ms → IsRule c → ∃ r, (n, r) ∈ cs ∧ c.create = .ok r

/-- a file of a folder or of a folder in it -/
inductive FileAt : Folder → List String → Prop
  | here {files subs f} : f ∈ files → FileAt (.folder files subs) [f]
  | sub {files subs n d p} : (n, d) ∈ subs → FileAt d p → FileAt (.folder files subs) (n :: p)

/-- a folder, or a folder in it -/
inductive FolderIn : Folder → Folder → Prop
  | here {d} : FolderIn d d
  | sub {files subs n d e} : (n, d) ∈ subs → FolderIn d e → FolderIn (.folder files subs) e

/-- the name of a file with rules: it begins with a letter and ends with `.py` -/
def PluginName (name : String) : Prop :=
  ∃ c cs, name.toList = c :: (cs ++ ".py".toList) ∧ ('A' ≤ c ∧ c ≤ 'Z' ∨ 'a' ≤ c ∧ c ≤ 'z')

/-- a file with rules -/
def PluginAt (d : Folder) (p : List String) : Prop := FileAt d p ∧ ∃ q f, p = q ++ [f] ∧ PluginName f

/-- every folder can be listed and lists every name once -/
def Listed (d : Folder) : Prop :=
  ∀ e, FolderIn d e → ∃ files subs, e = .folder files subs ∧ files.Nodup ∧ (subs.map Prod.fst).Nodup

/-- no file with rules has another dot in its name, or the name of a package beside it -/
def PlainPlugins (d : Folder) : Prop :=
  ∀ files subs, FolderIn d (.folder files subs) → ∀ f ∈ files, PluginName f →
    ∃ stem, f.toList = stem ++ ".py".toList ∧ '.' ∉ stem ∧ ∀ fs ss, (String.ofList stem, Folder.folder fs ss) ∈ subs → "__init__.py" ∉ fs

end CfnLint.Spec
