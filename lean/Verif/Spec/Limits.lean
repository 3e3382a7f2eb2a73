import Verif.Spec.Transform
/-
What the limit rules should report: sizes against the documented limits, read off the template by path.
-/
namespace CfnLint.Spec

/-- the size is strictly above the limit -/
def Over (limit size : Int) : Prop := limit < size

/-- the size is above nine tenths of the limit and at most the limit -/
def Near (limit size : Int) : Prop := 9 * limit < 10 * size ∧ size ≤ limit

instance (l s : Int) : Decidable (Over l s) := by unfold Over; infer_instance
instance (l s : Int) : Decidable (Near l s) := by unfold Near; infer_instance

/-- the documented limits on the number of entries of a section -/
def countLimit : List (String × Nat) :=
  [("Mappings", 200), ("Outputs", 200), ("Parameters", 200), ("Resources", 500)]

/-- the documented limit on the length of a name -/
def nameLength : Nat := 255

/-- the template has an entry of that name in the section -/
def HasEntry (t : Val) (sec : String) (name : Key) : Prop := ∃ v, look t [.str sec, name] = some v

/-- the entry counts: a resource counts when it states a type, an entry of another section always -/
def Counts (t : Val) (sec : String) (name : Key) : Prop :=
  if sec = "Resources" then ∃ ty, look t [.str sec, name, .str "Type"] = some ty ∧ ty ≠ .none
  else HasEntry t sec name

/-- the section of the template, when there is one, is an object named by texts -/
def Named (t : Val) (sec : String) : Prop :=
  (∃ d, t = .dict d) ∧ ∀ v, look t [.str sec] = some v → ∃ d, v = .dict d ∧ ∀ kv ∈ d, ∃ s, kv.1 = .str s

/-- the number of bytes of a character in UTF-8 -/
def charBytes (c : Char) : Nat :=
  if c.toNat < 128 then 1 else if c.toNat < 2048 then 2 else if c.toNat < 65536 then 3 else 4

/-- the number of bytes of a text in UTF-8 -/
def byteSize (s : String) : Nat := (s.toList.map charBytes).sum

end CfnLint.Spec
