import Verif.Model.Stages
import Batteries.Data.List.Basic
/-
The requirements on the stages of a pipeline.
-/
namespace CfnLint.Spec

/-- a stage: its name and the categories of its actions -/
structure StageInfo where
  name : String
  categories : List String

/-- the action has the category -/
def ActionOf (c : String) (v : Val) : Prop :=
  ∃ a ty, v = .dict a ∧ (Key.str "ActionTypeId", .dict ty) ∈ a ∧ (Key.str "Category", .str c) ∈ ty

/-- the value describes the stage -/
def StageOf (s : StageInfo) (v : Val) : Prop :=
  ∃ kvs as, v = .dict kvs ∧ (Key.str "Name", .str s.name) ∈ kvs ∧ (Key.str "Actions", .list as) ∈ kvs ∧ List.Forall₂ ActionOf s.categories as

/-- what is required of a pipeline: two stages or more; the first has source actions and no others, the others have none, some action is not a
source action, and no two stages have the same name -/
structure GoodPipeline (ss : List StageInfo) : Prop where
  two : 2 ≤ ss.length
  first : ∀ s, ss[0]? = some s → s.categories ≠ [] ∧ ∀ c ∈ s.categories, c = "Source"
  rest : ∀ i s, 0 < i → ss[i]? = some s → "Source" ∉ s.categories
  other : ∃ s ∈ ss, ∃ c ∈ s.categories, c ≠ "Source"
  names : (ss.map StageInfo.name).Nodup

/-- the faults of a pipeline and where they are reported, from the list of the stages -/
inductive StageFault (ss : List StageInfo) : StageMsg → Path → Prop
  | few : ss.length < 2 → StageFault ss (.few ss.length) []
  | noSource {s} : ss[0]? = some s → s.categories ≠ [] → "Source" ∉ s.categories → StageFault ss .noSource [.int 0, .str "Name"]
  | onlySource {s} : ss[0]? = some s → (¬ ∃ c ∈ s.categories, ∀ d ∈ s.categories, d = c) → StageFault ss .onlySource [.int 0, .str "Name"]
  | source {i j : Nat} {s} : 0 < i → ss[i]? = some s → s.categories[j]? = some "Source" →
      StageFault ss .source [.int i, .str "Actions", .int j]
  | allSource : ss ≠ [] → (∀ s ∈ ss, ∀ c ∈ s.categories, c = "Source") → StageFault ss .allSource []
  | name {i j : Nat} {s s'} : i < j → ss[i]? = some s → ss[j]? = some s' → s.name = s'.name →
      StageFault ss (.name s'.name) [.int j, .str "Name"]

end CfnLint.Spec
