import Verif.Model.Ebs
import Verif.Spec.Regex
import Verif.Spec.ResProps
import Verif.Spec.PrimType
import Verif.Spec.Elb
/-
Which devices, which sources of security groups and which domains for validation are right.
-/
namespace CfnLint.Spec

/-- the name of a volume of an instance: a number up to 23 -/
def EphemeralName (l : List Char) : Prop := ∃ n w, n ≤ 23 ∧ Decimal n w ∧ l = "ephemeral".toList ++ w

/-- the key is there, with a value other than null -/
def IsSet (kvs : List (Key × Val)) (key : String) : Prop := ∃ v, (Key.str key, v) ∈ kvs ∧ v ≠ .none

/-- the faults of a device, with their places in it -/
inductive DeviceFault (kvs : List (Key × Val)) : Path → Prop
  | name {s} : (Key.str "VirtualName", Val.str s) ∈ kvs → s ≠ "" → ¬ MaybeBreak EphemeralName s → DeviceFault kvs [.str "VirtualName"]
  | missing {es v q} : ¬ Given kvs "VirtualName" → (Key.str "Ebs", Val.dict es) ∈ kvs → (Key.str "VolumeType", v) ∈ es → PropValue v q (.str "io1") →
      ¬ IsSet es "Iops" → DeviceFault kvs [.str "Ebs", .str "VolumeType"]
  | extra {es v q s} : ¬ Given kvs "VirtualName" → (Key.str "Ebs", Val.dict es) ∈ kvs → (Key.str "VolumeType", v) ∈ es → PropValue v q (.str s) →
      s ≠ "io1" → s ≠ "" → IsSet es "Iops" → DeviceFault kvs [.str "Ebs", .str "Iops"]

/-- the properties of devices are set -/
def DevicePlain (x : Val) : Prop :=
  ∃ kvs, x = .dict kvs ∧ (∀ v, (Key.str "VirtualName", v) ∈ kvs → v.truthy = true → ∃ s, v = .str s) ∧
    ∀ es v key, (Key.str "Ebs", Val.dict es) ∈ kvs → (Key.str key, v) ∈ es → v ≠ .none → ∀ q, ¬ Leaf v q .none

/-- the source that a rule of a security group must not have -/
def wrongSource (vpc : Prop) (key : String) : Prop := (vpc ∧ key = "SourceSecurityGroupName") ∨ (¬ vpc ∧ key = "SourceSecurityGroupId")

/-- the faults of rules for security groups -/
inductive IngressFault (t : Val) : Path → Prop
  | inner {name kvs xs es} {i : Nat} {key} : HasProps t "AWS::EC2::SecurityGroup" name (.dict kvs) → (Key.str "SecurityGroupIngress", Val.list xs) ∈ kvs →
      xs[i]? = some (.dict es) → wrongSource (Given kvs "VpcId") key → Given es key →
      IngressFault t [.str "Resources", name, .str "Properties", .str "SecurityGroupIngress", .int i, .str key]
  | own {name kvs key} : HasProps t "AWS::EC2::SecurityGroupIngress" name (.dict kvs) → wrongSource (Given kvs "GroupId") key → Given kvs key →
      IngressFault t [.str "Resources", name, .str "Properties", .str key]

/-- `w` is the domain `d`, or `d` is in it -/
def InDomain (d w : String) : Prop := d = w ∨ ∃ a : List Char, d.toList = a ++ '.' :: w.toList

/-- the set of properties has a domain for validation the name is not in -/
def WrongOption (kvs : List (Key × Val)) : Prop :=
  ∃ d w, (Key.str "DomainName", Val.str d) ∈ kvs ∧ (Key.str "ValidationDomain", Val.str w) ∈ kvs ∧ ¬ InDomain d w

end CfnLint.Spec
