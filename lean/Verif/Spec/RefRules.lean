import Verif.Model.RefRules
import Verif.Spec.Template
import Verif.Spec.Regex
/-
Where references and keys must not stand.
-/
namespace CfnLint.Spec

/-- the value `w` of the key `key` stands at `p` in the template or in the globals that were taken out of it -/
def KeyAt (t globals : Val) (key : String) (p : Path) (w : Val) : Prop := (∃ q, p = q ++ [.str key]) ∧ (At t p w ∨ At globals p w)

/-- the value names a resource: a text or an integer that is a key of `Resources` -/
def NamesResource (t w : Val) : Prop :=
  ∃ rs v, At t [.str "Resources"] (.dict rs) ∧ ((∃ s, w = .str s ∧ (Key.str s, v) ∈ rs) ∨ (∃ i, (w = .int i ∨ ∃ b, w = .bool b ∧ i = if b then 1 else 0) ∧ (Key.int i, v) ∈ rs))

/-- the wrong keys of mappings: keys of rows that are no texts, keys of cells that are no texts or have other characters than letters and digits -/
inductive BadMapKey (t : Val) : Path → Prop
  | row {m k rows v} : At t [.str "Mappings", m] (.dict rows) → (Key.int k, v) ∈ rows → BadMapKey t [.str "Mappings", m, .int k]
  | cell {m rows r cells k v} : At t [.str "Mappings", m] (.dict rows) → (r, Val.dict cells) ∈ rows → (k, v) ∈ cells → (∀ s, k = .str s → ¬ MaybeBreak Alnum s) →
      BadMapKey t [.str "Mappings", m, r, k]

end CfnLint.Spec
