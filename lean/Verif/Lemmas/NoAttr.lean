import Verif.Props.PropSets
import Verif.Props.ListSpecs
import Verif.Props.ListRepeats
import Verif.Props.Closed
/-
The removal of the conditions never ends in a `TemplateAttributeError`, which the runner would swallow: what it raises, it raises as other
exceptions. Nor do the checks of Model/PropSets and Model/ListSpecs for objects whose branches are objects.
-/
namespace CfnLint

open Spec

/-- no `TemplateAttributeError` is raised -/
def NoAttr {α : Type} (x : PyM α) : Prop := ∀ s, x ≠ .error (.templateAttributeError s)

theorem noAttr_ok {α : Type} (a : α) : NoAttr (.ok a : PyM α) := fun _ h => by cases h

theorem noAttr_collectM {α β : Type} {f : α → PyM (List β)} {l : List α} (h : ∀ a ∈ l, NoAttr (f a)) : NoAttr (collectM f l) := by
  intro s hs
  obtain ⟨a, ha, he⟩ := collectM_error hs
  exact h a ha s he

theorem noAttr_lookupBranch (sc : Scenario) (c : Val) : NoAttr (lookupBranch sc c) := by
  intro s h
  cases c <;> simp [lookupBranch, hashName] at h

theorem noAttr_ifArgs (v : Val) : NoAttr (ifArgs v) := by
  intro s h
  unfold ifArgs at h
  repeat' split at h
  all_goals cases h

mutual
theorem noAttr_valueIn (sc : Scenario) : ∀ v : Val, NoAttr (valueIn sc v)
  | .dict [(k, v)] => by
    rw [valueIn]
    split
    · exact noAttr_valueIf sc _ v
    · split <;> exact noAttr_ok _
  | .list xs => by
    rw [valueIn]
    have := noAttr_valuesIn sc xs
    split
    · rename_i e he
      intro s hs
      cases hs
      exact this s he
    · exact noAttr_ok _
  | .dict [] => by rw [valueIn]; exact noAttr_ok _; all_goals simp
  | .dict (_ :: _ :: _) => by rw [valueIn]; exact noAttr_ok _; all_goals simp
  | .none => by rw [valueIn]; exact noAttr_ok _; all_goals simp
  | .bool _ => by rw [valueIn]; exact noAttr_ok _; all_goals simp
  | .int _ => by rw [valueIn]; exact noAttr_ok _; all_goals simp
  | .flt _ => by rw [valueIn]; exact noAttr_ok _; all_goals simp
  | .str _ => by rw [valueIn]; exact noAttr_ok _; all_goals simp
theorem noAttr_valueIf (sc : Scenario) (whole : Val) : ∀ v : Val, NoAttr (valueIf sc whole v)
  | .list [c, a, b] => by
    rw [valueIf]
    have ha := noAttr_valueIn sc a
    have hb := noAttr_valueIn sc b
    have hc := noAttr_lookupBranch sc c
    split
    · rename_i e he
      intro s hs
      cases hs
      exact hc s he
    · exact ha
    · exact hb
    · exact noAttr_ok _
  | .str s => by
    rw [valueIf]
    split <;> exact noAttr_ok _
  | .list [] => by rw [valueIf]; exact noAttr_ok _; all_goals simp
  | .list [_] => by rw [valueIf]; exact noAttr_ok _; all_goals simp
  | .list [_, _] => by rw [valueIf]; exact noAttr_ok _; all_goals simp
  | .list (_ :: _ :: _ :: _ :: _) => by rw [valueIf]; exact noAttr_ok _; all_goals simp
  | .dict kvs => by
    rw [valueIf]
    · split
      · rename_i e he
        intro s hs
        cases hs
        exact noAttr_ifArgs _ s he
      · exact noAttr_ok _
    all_goals simp
  | .none => by intro s hs; simp [valueIf, ifArgs] at hs
  | .bool _ => by intro s hs; simp [valueIf, ifArgs] at hs
  | .int _ => by intro s hs; simp [valueIf, ifArgs] at hs
  | .flt _ => by intro s hs; simp [valueIf, ifArgs] at hs
theorem noAttr_valuesIn (sc : Scenario) : ∀ xs : List Val, NoAttr (valuesIn sc xs)
  | [] => by rw [valuesIn]; exact noAttr_ok _
  | x :: xs => by
    rw [valuesIn]
    have hx := noAttr_valueIn sc x
    have hxs := noAttr_valuesIn sc xs
    split
    · rename_i e he
      intro s hs
      cases hs
      exact hx s he
    · split
      · rename_i e he
        intro s hs
        cases hs
        exact hxs s he
      · exact noAttr_ok _
end

theorem noAttr_propsIn (sc : Scenario) : ∀ l acc : List (Key × Val), NoAttr (propsIn sc l acc)
  | [], _ => by rw [propsIn]; exact noAttr_ok _
  | (k, v) :: rest, acc => by
    rw [propsIn]
    split
    · rename_i e he
      intro s hs
      cases hs
      exact noAttr_valueIn sc v s he
    · exact noAttr_propsIn sc rest _

/-- the error of the first step is not a `TemplateAttributeError`; the second step is left -/
local macro "step " h:term : tactic => `(tactic| (split; (rename_i e he; intro s hs; cases hs; exact $h s he)))

theorem noAttr_valueFromScenario (sc : Scenario) (obj : Val) : NoAttr (valueFromScenario sc obj) := by
  unfold valueFromScenario
  split
  · split
    · step (noAttr_valueIn _ _)
      exact noAttr_ok _
    · step (noAttr_propsIn _ _ _)
      exact noAttr_ok _
  · step (noAttr_propsIn _ _ _)
    exact noAttr_ok _
  · exact noAttr_ok _

theorem noAttr_objectsAll (obj : Val) : ∀ scs : List Scenario, NoAttr (objectsAll obj scs)
  | [] => noAttr_ok _
  | sc :: rest => by
    rw [objectsAll]
    step (noAttr_valueFromScenario _ _)
    step (noAttr_objectsAll obj rest)
    exact noAttr_ok _

theorem noAttr_objectsWithout (scs : List Scenario) (obj : Val) : NoAttr (objectsWithout scs obj) := by
  unfold objectsWithout
  split
  · exact noAttr_ok _
  · split
    · split <;> exact noAttr_ok _
    · exact noAttr_objectsAll _ _

theorem noAttr_getScenarios (enum : String → List String → List String) (tb : CondTable) (req : List Key) : NoAttr (getScenarios enum tb req) := by
  intro s hs
  cases C25_only_attribute_error _ _ _ _ hs

theorem noAttr_objectWithoutConditions (enum : String → List String → List String) (order : List String → List String) (tb : CondTable)
    (obj : Val) : NoAttr (objectWithoutConditions enum order tb obj) := by
  unfold objectWithoutConditions
  step (noAttr_getScenarios _ _ _)
  exact noAttr_objectsWithout _ _

theorem noAttr_objectWithoutNamed (enum : String → List String → List String) (order : List String → List String) (tb : CondTable)
    (l : List (Key × Val)) (names : List String) : NoAttr (objectWithoutNamed enum order tb (.dict l) names) := by
  have hn : NoAttr (namedObject names (.dict l)) := by
    unfold namedObject
    split <;> exact noAttr_ok _
  unfold objectWithoutNamed
  step hn
  step (noAttr_getScenarios _ _ _)
  exact noAttr_objectsWithout _ _

/-- the branches of the object, without what is removed, are objects -/
theorem itemsSafe_plain {kvs : List (Key × Val)} {path : Path} (hw : (Val.dict kvs).WF) (hb : PlainBranches (.dict kvs)) {r : Val × Path}
    (hr : r ∈ itemsSafe [] kvs path) : ∃ l, r.1 = .dict (cleaned l) ∧ PlainObject (cleaned l) := by
  obtain ⟨q, u, hl, _, hw', _⟩ := (mem_itemsSafe [] kvs path r.2 r.1 hw).1 hr
  obtain ⟨l, rfl, hp⟩ := hb q u hl
  exact ⟨l, hw', plain_cleaned hp⟩

theorem noAttr_countCheck {enum : String → List String → List String} {order : List String → List String} {tb : CondTable}
    {bad : Nat → Bool} {kvs : List (Key × Val)} {groups : List (List String)} {path : Path} (hw : (Val.dict kvs).WF)
    (hb : PlainBranches (.dict kvs)) : NoAttr (countCheck enum order tb bad (.dict kvs) groups path) := by
  refine noAttr_collectM fun group _ => ?_
  simp only [itemsSafeOf]
  refine noAttr_collectM fun r hr => ?_
  obtain ⟨l, e, hp⟩ := itemsSafe_plain hw hb hr
  rw [e]
  step (noAttr_objectWithoutNamed _ _ _ _ _)
  rename_i sets hs
  refine noAttr_collectM fun s hs' => ?_
  unfold objectWithoutNamed at hs
  split at hs
  · cases hs
  · split at hs
    · cases hs
    · obtain ⟨m, hm, _⟩ := sets_sound hp hs hs'
      rw [hm, countIn_eq]
      exact noAttr_ok _

theorem noAttr_pairSets {enum : String → List String → List String} {order : List String → List String} {tb : CondTable}
    {present : Bool} {l : List (Key × Val)} {table : List (String × List String)} {report : Key → Path} (hp : PlainObject l) :
    NoAttr (match objectWithoutConditions enum order tb (.dict l) with
      | .error e => .error e
      | .ok sets => pairSets present table report sets) := by
  step (noAttr_objectWithoutConditions _ _ _ _)
  rename_i sets hs
  refine noAttr_collectM fun s hs' => ?_
  unfold objectWithoutConditions at hs
  split at hs
  · cases hs
  · obtain ⟨m, hm, _⟩ := sets_sound hp hs hs'
    rw [hm]
    exact noAttr_ok _

theorem noAttr_eachDeclared {ρ α : Type} {rows : List (String × ρ)} {f : String → ρ → Val → Path → PyM (List α)} {kvs : List (Key × Val)}
    {path : Path} (hw : (Val.dict kvs).WF) (ho : ∀ q u, Leaf (.dict kvs) q u → ∃ l, u = .dict l)
    (hf : ∀ q l s d p, Leaf (.dict kvs) q (.dict l) → NoAttr (f s d (.dict (cleaned l)) p)) :
    NoAttr (eachDeclared rows f (.dict kvs) path) := by
  unfold eachDeclared
  simp only [itemsSafeOf]
  refine noAttr_collectM fun r hr => ?_
  obtain ⟨q, u, hl, _, hw', _⟩ := (mem_itemsSafe [] kvs path r.2 r.1 hw).1 hr
  obtain ⟨l, rfl⟩ := ho q u hl
  rw [show r.1 = .dict (cleaned l) from hw']
  unfold declaredIn
  simp only [iterOf]
  refine noAttr_collectM fun x hx => ?_
  split
  · split
    · exact noAttr_ok _
    · exact hf _ _ _ _ _ hl
  · intro s hs; cases hs
  · intro s hs; cases hs
  · exact noAttr_ok _

theorem noAttr_sizeRule {enum : String → List String → List String} {order : List String → List String} {tb : CondTable}
    {rows : List (String × ListRow)} {kvs : List (Key × Val)} {path : Path} (hw : (Val.dict kvs).WF) (hb : PlainBranches (.dict kvs)) :
    NoAttr (sizeRule enum order tb rows (.dict kvs) path) := by
  refine noAttr_eachDeclared hw (fun q u h => (hb q u h).imp fun _ h => h.1) fun q l s d p hl => ?_
  obtain ⟨l', e, hp⟩ := hb q _ hl
  cases e
  unfold sizeValue
  split
  · exact noAttr_ok _
  · step (noAttr_objectWithoutConditions _ _ _ _)
    rename_i sets hs
    refine noAttr_collectM fun x hx => ?_
    unfold objectWithoutConditions at hs
    split at hs
    · cases hs
    · obtain ⟨m, hm, _⟩ := sets_sound (plain_cleaned hp) hs hx
      unfold sizeIn
      rw [hm]
      simp only
      split <;> exact noAttr_ok _

theorem noAttr_dupValue (enum : String → List String → List String) (order : List String → List String) (tb : CondTable) (v : Val) (p : Path) :
    NoAttr (dupValue enum order tb v p) := by
  unfold dupValue
  split
  · exact noAttr_ok _
  · step (noAttr_objectWithoutConditions _ _ _ _)
    exact noAttr_ok _
  · exact noAttr_ok _

theorem noAttr_dupRule {enum : String → List String → List String} {order : List String → List String} {tb : CondTable} {test : ListRow → Bool}
    {rows : List (String × ListRow)} {kvs : List (Key × Val)} {path : Path} (hw : (Val.dict kvs).WF)
    (ho : ∀ q u, Leaf (.dict kvs) q u → ∃ l, u = .dict l) : NoAttr (dupRule enum order tb test rows (.dict kvs) path) := by
  refine noAttr_eachDeclared hw ho fun q l s d p hl => ?_
  split
  · have hn : NoAttr ((Val.dict (cleaned l)).subscript (.str s)) := by
      intro s hs
      simp only [Val.subscript] at hs
      split at hs <;> cases hs
    step hn
    exact noAttr_dupValue _ _ _ _ _
  · exact noAttr_ok _

end CfnLint
