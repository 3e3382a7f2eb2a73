import Verif.Spec.Sub
import Verif.Spec.Transform
/-
Secret parameters in the metadata of resources. The metadata of a resource is shown as it is; a parameter whose `NoEcho` is true is
secret.
-/
namespace CfnLint.Spec

/-- true, or a text that says so, in capital or small letters -/
inductive SaysTrue : Val → Prop
  | bool : SaysTrue (.bool true)
  | text {s : String} : s.toList.map Char.toLower = ['t', 'r', 'u', 'e'] → SaysTrue (.str s)

/-- the parameter is secret -/
def SecretParam (t : Val) (k : Key) : Prop := ∃ v, look t [.str "Parameters", k, .str "NoEcho"] = some v ∧ SaysTrue v

/-- the place `q` in the metadata of the resource -/
def metadataPath (name : Key) (q : Path) : Path := .str "Resources" :: name :: .str "Metadata" :: q

/-- the metadata of the resource contains the value of the parameter -/
inductive ShowsParam (t : Val) (name : Key) (x : String) : Prop
  | ref {q} : At t (metadataPath name (q ++ [.str "Ref"])) (.str x) → ShowsParam t name x
  | sub {q s} : At t (metadataPath name (q ++ [.str "Fn::Sub"])) (.str s) → SubVar s x → ShowsParam t name x
  | subMap {q s m} : At t (metadataPath name (q ++ [.str "Fn::Sub"])) (.list [.str s, .dict m]) → SubVar s x →
      (∀ w, (.str x, w) ∉ m) → ShowsParam t name x

end CfnLint.Spec
