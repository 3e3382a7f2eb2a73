import Verif.Model.Password
import Verif.Spec.SecureRefs
import Verif.Spec.Template
import Verif.Spec.Refs
/-
How passwords are to be given, and of which type the parameters for images are to be.
-/
namespace CfnLint.Spec

/-- a dynamic reference -/
def DynRef (l : List Char) : Prop := ∃ n, n ≠ [] ∧ '\n' ∉ n ∧ l = "{{resolve:".toList ++ (n ++ "}}".toList)

/-- a dynamic reference to a parameter that is not secure: a name and a version -/
def SsmRef (digit : Char → Bool) (l : List Char) : Prop :=
  ∃ n v, n ≠ [] ∧ (∀ c ∈ n, NameChar c) ∧ v ≠ [] ∧ (∀ c ∈ v, digit c = true) ∧ l = "{{resolve:ssm:".toList ++ (n ++ ':' :: (v ++ "}}".toList))

/-- the text has a part of that kind -/
def HasPart (R : List Char → Prop) (s : String) : Prop := ∃ a r b, R r ∧ s.toList = a ++ (r ++ b)

/-- the properties that are passwords -/
def passwordNames : List String :=
  ["Password", "AccountPassword", "AdminPassword", "ADDomainJoinPassword", "CrossRealmTrustPrincipalPassword", "KdcAdminPassword", "DbPassword",
   "MasterUserPassword", "PasswordParam"]

/-- `v` stands at the place `p` in the properties of a resource, `p` ending in `name` -/
def PropertyAt (t : Val) (name : String) (p : Path) (v : Val) : Prop :=
  ∃ res q, p = .str "Resources" :: res :: .str "Properties" :: (q ++ [.str name]) ∧ At t p v

/-- the parameter is shown: nothing says that it is not -/
def Shown (param : List (Key × Val)) : Prop := ∀ v, (Key.str "NoEcho", v) ∈ param → v.truthy = false

/-- the faults of passwords, with their places -/
inductive PasswordFault (digit : Char → Bool) (t : Val) : Path → PwFault → Prop
  | insecure {name p s} : name ∈ passwordNames → PropertyAt t name p (.str s) → HasPart DynRef s → HasPart (SsmRef digit) s → IsLine s →
      PasswordFault digit t p .insecure
  | fixed {name p s} : name ∈ passwordNames → PropertyAt t name p (.str s) → ¬ (HasPart DynRef s ∧ IsLine s) → PasswordFault digit t p .fixed
  | map {name p kvs} : name ∈ passwordNames → PropertyAt t name p (.dict kvs) → kvs.length ≠ 1 → PasswordFault digit t p .map
  | shown {name p par param} : name ∈ passwordNames → PropertyAt t name p (.dict [(.str "Ref", .str par)]) →
      At t [.str "Parameters", .str par] (.dict param) → Shown param → PasswordFault digit t [.str "Parameters", .str par] (.shown name)

/-- `v` is an image of a resource, at `p` -/
def ImageAt (t : Val) (p : Path) (v : Val) : Prop := ∃ q, p = .str "Resources" :: (q ++ [.str "ImageId"]) ∧ At t p v

/-- the types of parameters for images -/
def ImageType (ty : Val) : Prop := ty = .str "AWS::EC2::Image::Id" ∨ ty = .str "AWS::SSM::Parameter::Value<AWS::EC2::Image::Id>"

/-- the faults of images: an object that is no call, and something of another type, declared in the section `f`, that the image refers to -/
inductive ImageFault (t : Val) : Path → Option String → Prop
  | map {p l} : ImageAt t p (.dict l) → l.length ≠ 1 → ImageFault t p none
  | type {p s ty f} : ImageAt t p (.dict [(.str "Ref", .str s)]) → RefersTo t s ty f → ¬ ImageType ty → ImageFault t [.str "Parameters", .str s] (some f)

end CfnLint.Spec
