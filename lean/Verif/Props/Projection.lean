import Verif.Lemmas.Project
import Verif.Props.Conditions
/-
C32: objects under a scenario.
-/
namespace CfnLint
open Spec

/-- `σ` is what the scenario says about the conditions -/
def Says (sc : Scenario) (σ : String → Option Bool) : Prop := ∀ c, σ c = (dlookup (.str c) sc).getD none

theorem says_fn {sc : Scenario} {σ : String → Option Bool} (h : Says sc σ) : σ = sc.fn := funext h

/-- C32 in full: under a scenario that knows all the conditions used, the object becomes its projection:
every `Fn::If` replaced by the branch chosen and every `AWS::NoValue` removed, at any depth (an object that is
removed altogether becomes the empty object). -/
def C32_statement : Prop := ∀ (sc : Scenario) (σ : String → Option Bool) (kvs : List (Key × Val)),
  Says sc σ → (Val.dict kvs).WF → Closed σ (.dict kvs) →
  valueFromScenario sc (.dict kvs) = .ok ((project σ (.dict kvs)).getD (.dict []))

/-- C32 in full for the other function, which is documented to look deep into the object. -/
def C32_deep_statement : Prop := ∀ (sc : Scenario) (σ : String → Option Bool) (v : Val),
  Says sc σ → v.WF → Closed σ v → deepIn sc v = .ok ((project σ v).getD .none)

def exSc : Scenario := [(.str "C", some true)]

/-- C32 fails: an `Fn::If` inside a nested object is not resolved although the scenario knows its condition. -/
theorem C32_nested_violated : ¬ C32_statement := by
  intro h
  have := h exSc exSc.fn [(.str "A", .dict [(.str "B", fnIf (.str "C") (.int 1) (.int 2))])]
    (fun _ => rfl) (by simp [Val.WF, Val.WFDict, Val.WFList, fnIf])
    (by
      simp only [Closed, ClosedIf, fnIf]
      rw [if_neg (by decide), if_neg (by decide), if_pos trivial]
      exact ⟨⟨true, rfl⟩, trivial, trivial⟩)
  revert this
  decide

/-- C32 fails: the branch taken by an `Fn::If` that is the whole object is not processed. -/
theorem C32_root_violated : valueFromScenario exSc (fnIf (.str "C")
      (.dict [(.str "A", fnIf (.str "C") (.int 1) (.int 2))]) (.dict [])) =
    .ok (.dict [(.str "A", fnIf (.str "C") (.int 1) (.int 2))]) := by decide

/-- C32 fails for the deep function: removed properties stay, with the value null. -/
theorem C32_null_violated : ¬ C32_deep_statement := by
  intro h
  have := h exSc exSc.fn (.dict [(.str "A", .dict [(.str "Ref", .str "AWS::NoValue")]), (.str "B", .int 1)])
    (fun _ => rfl) (by simp [Val.WF, Val.WFDict])
    (by
      simp only [Closed, ClosedEntries]
      rw [if_neg (by decide)]
      exact ⟨trivial, trivial, trivial⟩)
  simp [deepIn, deepEntries, project, projectEntries] at this

/-- C32, partial: the object is its projection when the `Fn::If`s stand where the linter looks: at the top,
as property values, in their branches and in lists. Missing: those inside nested objects
(`C32_nested_violated`). -/
theorem C32_project_partial (sc : Scenario) (σ : String → Option Bool) (kvs : List (Key × Val))
    (hσ : Says sc σ) (hw : (Val.dict kvs).WF) (hf : FlatObject kvs) (hc : Closed σ (.dict kvs)) :
    valueFromScenario sc (.dict kvs) = .ok ((project σ (.dict kvs)).getD (.dict [])) := by
  obtain rfl := says_fn hσ
  rw [Val.WF] at hw
  exact valueFromScenario_project sc kvs hw.1 hf hc

/-- C32, partial: the deep function computes the projection at any depth, once the nulls it leaves behind
are dropped. -/
theorem C32_deep_partial (sc : Scenario) (σ : String → Option Bool) (v : Val)
    (hσ : Says sc σ) (hc : Closed σ v) :
    ∃ w, deepIn sc v = .ok w ∧ dropNull w = (project σ v).getD .none ∧ (w = .none ↔ project σ v = none) := by
  obtain rfl := says_fn hσ
  exact deepIn_project sc v hc

/-- C32: no `Fn::If` and no `AWS::NoValue` is left in the result. -/
theorem C32_no_if_left_partial (sc : Scenario) (σ : String → Option Bool) (kvs : List (Key × Val))
    (hσ : Says sc σ) (hw : (Val.dict kvs).WF) (hf : FlatObject kvs) (hc : Closed σ (.dict kvs))
    (ht : Tidy (.dict kvs)) (w : Val) (h : valueFromScenario sc (.dict kvs) = .ok w) : NoIf w := by
  rw [C32_project_partial sc σ kvs hσ hw hf hc] at h
  injection h with h
  subst h
  cases hp : project σ (.dict kvs) with
  | none => simp only [Option.getD_none]; rw [NoIf.eq_2 _ (by simp), NoIfEntries]; trivial
  | some p => exact project_noIf σ _ ht hc p hp

/-- C32: the same for the deep function, at any depth. -/
theorem C32_deep_no_if_left (sc : Scenario) (σ : String → Option Bool) (v : Val)
    (hσ : Says sc σ) (hc : Closed σ v) (ht : Tidy v) (w : Val) (h : deepIn sc v = .ok w) :
    NoIf (dropNull w) := by
  obtain ⟨w', h1, h2, _⟩ := C32_deep_partial sc σ v hσ hc
  rw [h] at h1
  injection h1 with h1
  subst h1
  rw [h2]
  cases hp : project σ v with
  | none => simp only [Option.getD_none]; rw [NoIf.eq_4 _ (by simp) (by simp) (by simp)]; trivial
  | some p => exact project_noIf σ _ ht hc p hp

/-- C32: an object without `Fn::If`s and references to `AWS::NoValue` is left unchanged by any scenario. -/
theorem C32_unchanged (sc : Scenario) (kvs : List (Key × Val)) (hw : (Val.dict kvs).WF)
    (hn : NoIf (.dict kvs)) (hc : Closed (fun _ => some true) (.dict kvs)) :
    valueFromScenario sc (.dict kvs) = .ok (.dict kvs) := by
  have hflat : ∀ v, NoIf v → Flat v := by
    intro v
    induction v using Val.ind with
    | hlist xs ih =>
      intro h
      rw [NoIf] at h
      rw [Flat]
      clear hw hn hc
      induction xs with
      | nil => rw [FlatItems]; trivial
      | cons x xs ih' =>
        rw [NoIfItems] at h
        rw [FlatItems]
        exact ⟨ih x List.mem_cons_self h.1, ih' (fun y hy => ih y (List.mem_cons_of_mem _ hy)) h.2⟩
    | hdict kvs _ =>
      intro h
      match kvs, h with
      | [], h => rw [Flat.eq_2 _ (by simp)]; rwa [NoIf.eq_2 _ (by simp)] at h
      | [(k, v)], h =>
        rw [NoIf] at h
        rw [Flat, if_neg h.1]
        exact .inr h.2.2
      | _ :: _ :: _, h => rw [Flat.eq_2 _ (by simp)]; rwa [NoIf.eq_2 _ (by simp)] at h
    | _ => intro _; rw [Flat.eq_4 _ (by simp) (by simp) (by simp)]; trivial
  have hfo : FlatObject kvs := by
    match kvs, hn with
    | [], _ => intro kv hkv; cases hkv
    | [(k, v)], h =>
      rw [NoIf] at h
      rw [FlatObject, if_neg h.1]
      exact ⟨h.2.1, hflat v h.2.2⟩
    | a :: b :: l, h =>
      rw [NoIf.eq_2 _ (by simp)] at h
      rw [FlatObject.eq_2 _ (by simp)]
      clear hw hn hc
      generalize a :: b :: l = xs at h
      induction xs with
      | nil => intro kv hkv; cases hkv
      | cons x xs ih =>
        rw [NoIfEntries] at h
        intro kv hkv
        rcases List.mem_cons.1 hkv with rfl | hkv
        · exact hflat _ h.1
        · exact ih h.2 kv hkv
  rw [C32_project_partial sc sc.fn kvs (fun _ => rfl) hw hfo (noIf_closed _ hn hc), noIf_project _ _ hn]
  rfl

/-- C32: the objects returned are exactly the non-empty projections under the scenarios considered, in
their order. -/
theorem C32_objects_partial (scs : List Scenario) (kvs : List (Key × Val)) (hne : scs ≠ [])
    (hw : (Val.dict kvs).WF) (hf : FlatObject kvs) (hc : ∀ sc ∈ scs, Closed sc.fn (.dict kvs)) :
    objectsWithout scs (.dict kvs) = .ok ((scs.filter (fun sc =>
        ((project sc.fn (.dict kvs)).getD (.dict [])).truthy)).map
      (fun sc => (some sc, (project sc.fn (.dict kvs)).getD (.dict [])))) := by
  obtain ⟨l, h1, h2⟩ := objectsAll_mem (obj := .dict kvs)
    (fun sc => (project sc.fn (.dict kvs)).getD (.dict [])) scs
    (fun sc hsc => C32_project_partial sc _ kvs (fun _ => rfl) hw hf (hc sc hsc))
  unfold objectsWithout
  have hemp : scs.isEmpty = false := by cases scs with
    | nil => exact absurd rfl hne
    | cons => rfl
  rw [if_neg (by simp [Val.isDict]), if_neg (by simp [hemp]), h1, h2]

theorem deepAll_mem {obj : Val} (f : Scenario → Val → Prop) : ∀ (scs : List Scenario),
    (∀ sc ∈ scs, ∃ w, deepIn sc obj = .ok w ∧ f sc w) →
    ∃ l, deepAll obj scs = .ok l ∧ l.map Prod.fst = scs.map some ∧ ∀ sc w, (some sc, w) ∈ l → f sc w
  | [], _ => ⟨[], rfl, rfl, by simp⟩
  | sc :: rest, h => by
    obtain ⟨l, h1, h2, h3⟩ := deepAll_mem f rest (fun x hx => h x (List.mem_cons_of_mem _ hx))
    obtain ⟨w, h4, h5⟩ := h sc List.mem_cons_self
    rw [deepAll, h4, h1]
    refine ⟨_, rfl, by simp [h2], ?_⟩
    intro sc' w' hm
    rcases List.mem_cons.1 hm with he | hm
    · cases he; exact h5
    · exact h3 _ _ hm

/-- C32: the deep function returns one object for every scenario, in their order, each the projection once
nulls are dropped. -/
theorem C32_deep_objects_partial (scs : List Scenario) (v : Val) (hne : scs ≠ [])
    (hv : (∃ kvs, v = .dict kvs) ∨ ∃ xs, v = .list xs) (hc : ∀ sc ∈ scs, Closed sc.fn v) :
    ∃ l, objectsDeep scs v = .ok l ∧ l.map Prod.fst = scs.map some ∧
      ∀ sc w, (some sc, w) ∈ l → dropNull w = (project sc.fn v).getD .none := by
  obtain ⟨l, h1, h2, h3⟩ := deepAll_mem (obj := v)
    (fun sc w => dropNull w = (project sc.fn v).getD .none) scs (by
      intro sc hsc
      obtain ⟨w, e1, e2, _⟩ := C32_deep_partial sc sc.fn v (fun _ => rfl) (hc sc hsc)
      exact ⟨w, e1, e2⟩)
  refine ⟨l, ?_, h2, h3⟩
  unfold objectsDeep
  have hemp : scs.isEmpty = false := by cases scs with
    | nil => exact absurd rfl hne
    | cons => rfl
  rw [if_neg (by rcases hv with ⟨_, rfl⟩ | ⟨_, rfl⟩ <;> simp [Val.isDict, Val.isList]), if_neg (by simp [hemp]), h1]

/-- C32: without scenarios the deep function returns the object itself, nothing for a removed object and
nothing for values that are no objects or lists. -/
theorem C32_deep_no_scenarios (v : Val) :
    (v = .dict [(.str "Ref", .str "AWS::NoValue")] → objectsDeep [] v = .ok []) ∧
    ((¬ ∃ kvs, v = .dict kvs) → (¬ ∃ xs, v = .list xs) → objectsDeep [] v = .ok []) ∧
    (v ≠ .dict [(.str "Ref", .str "AWS::NoValue")] → ((∃ kvs, v = .dict kvs) ∨ ∃ xs, v = .list xs) →
      objectsDeep [] v = .ok [(none, v)]) := by
  refine ⟨?_, ?_, ?_⟩
  · rintro rfl; rfl
  · intro h1 h2
    cases v <;> simp_all [objectsDeep, Val.isDict, Val.isList]
  · intro h1 h2
    unfold objectsDeep
    rw [if_neg (by rcases h2 with ⟨_, rfl⟩ | ⟨_, rfl⟩ <;> simp [Val.isDict, Val.isList])]
    simp [h1]

/-- C32 with C22: whatever the parameters are at deployment, the object the deployment sees is among the
objects returned, unless it is empty. -/
theorem C32_deployment_covered_partial (H : Val → String) (fuel : Nat)
    (enum : String → List String → List String) (order : List String → List String)
    (t : List (Key × Val)) (tb : CondTable) (σ : Val → String) (b : Key → Bool) (kvs : List (Key × Val))
    (henum : Enumerates enum) (horder : ∀ l c, c ∈ order l ↔ c ∈ l)
    (hwt : (Val.dict t).WF) (hno : NoHashLiterals H (conditionsOf t))
    (hinit : Conditions.init H fuel (.dict t) = (tb, none)) (hσ : Respects H σ) (hperm : Permitted t σ)
    (hpl : PlainAllowed t) (hw : (Val.dict kvs).WF) (hf : FlatObject kvs) (ht : Tidy (.dict kvs))
    (hc : Closed (fun c => some (b (.str c))) (.dict kvs)) (hif : objectConds (.dict kvs) ≠ [])
    (hbr : ∀ c x y, kvs = [(.str "Fn::If", .list [c, x, y])] → x.isList = false ∧ y.isList = false)
    (hev : ∀ c ∈ ifNames (.dict kvs), ∃ v, dlookup (Key.str c) (conditionsOf t) = some v ∧
      Evals OneSided (conditionsOf t) σ v (b (.str c)))
    (hsmall : (order (objectConds (.dict kvs))).length ≤ 4 ∨
      Related (conditionsOf t) ((order (objectConds (.dict kvs))).map Key.str))
    (p : Val) (hp : project (fun c => some (b (.str c))) (.dict kvs) = some p) (hpt : p.truthy = true)
    (res : List (Option Scenario × Val))
    (hres : objectWithoutConditions enum order tb (.dict kvs) = .ok res) :
    ∃ sc, (some sc, p) ∈ res := by
  obtain ⟨c0, hc0⟩ := List.exists_mem_of_ne_nil _ hif
  obtain ⟨scs, hscs, sc, hsc, hval⟩ := C22_complete_partial H fuel enum t tb σ
    ((order (objectConds (.dict kvs))).map Key.str) b henum hwt hno hinit hσ hperm hpl
    (by
      intro h
      have : Key.str c0 ∈ (order (objectConds (.dict kvs))).map Key.str :=
        List.mem_map_of_mem ((horder _ _).2 hc0)
      rw [h] at this
      cases this)
    (by
      intro k hk
      obtain ⟨c, hcm, rfl⟩ := List.mem_map.1 hk
      exact hev c (objectConds_ifNames kvs ht hc c ((horder _ _).1 hcm)))
    (by rwa [List.length_map])
  have hclosed : Closed sc.fn (.dict kvs) := by
    refine objectConds_closed kvs hf hc hbr ?_
    intro c hcm
    refine ⟨b (.str c), ?_⟩
    unfold Scenario.fn
    rw [hval _ (List.mem_map_of_mem ((horder _ _).2 hcm))]
    rfl
  have hproj : project sc.fn (.dict kvs) = some p := by
    rw [← hp]
    refine (project_mono ?_ _ hclosed).symm
    intro c x hx
    by_cases hcm : Key.str c ∈ (order (objectConds (.dict kvs))).map Key.str
    · have := hval _ hcm
      unfold Scenario.fn at hx
      rw [this] at hx
      exact hx
    · have h21 := C21_exactly_requested enum tb _ scs hscs sc hsc (.str c)
      exfalso
      unfold Scenario.fn at hx
      cases hd : dlookup (Key.str c) sc with
      | none => rw [hd] at hx; cases hx
      | some y => exact hcm (h21.1 ⟨y, hd⟩)
  unfold objectWithoutConditions at hres
  rw [hscs] at hres
  simp only at hres
  unfold objectsWithout at hres
  have hemp : scs.isEmpty = false := by
    cases scs with
    | nil => cases hsc
    | cons => rfl
  rw [if_neg (by simp [Val.isDict]), if_neg (by simp [hemp])] at hres
  refine ⟨sc, objectsAll_complete hres hsc ?_ hpt⟩
  rw [C32_project_partial sc sc.fn kvs (fun _ => rfl) hw hf hclosed, hproj]
  rfl

/-- C32 fails without conditions: a removed property stays. -/
theorem C32_novalue_violated : objectsWithout [] (.dict [(.str "A", .dict [(.str "Ref", .str "AWS::NoValue")])]) =
    .ok [(none, .dict [(.str "A", .dict [(.str "Ref", .str "AWS::NoValue")])])] := rfl

/-! ### Witnesses -/

/-- an object with a conditional property, a conditional list item and an unconditional property -/
def exProps : List (Key × Val) :=
  [(.str "A", fnIf (.str "C1") (.int 1) (.dict [(.str "Ref", .str "AWS::NoValue")])),
   (.str "B", .list [fnIf (.str "C2") (.str "x") (fnIf (.str "C1") (.str "y") (.str "z")), .str "w"]),
   (.str "D", .dict [(.str "E", .int 1), (.str "F", .int 2)])]

theorem exProps_closed (σ : String → Option Bool) (h1 : ∃ x, σ "C1" = some x) (h2 : ∃ x, σ "C2" = some x) :
    Closed σ (.dict exProps) := by
  simp only [exProps, fnIf, Closed, ClosedEntries, ClosedItems, ClosedIf]
  simp [h1, h2]

theorem exProps_flat : FlatObject exProps := by
  simp [exProps, fnIf, FlatObject, Flat, FlatIf, FlatItems, NoIfEntries, NoIf]

theorem exProps_wf : (Val.dict exProps).WF := by
  simp [exProps, fnIf, Val.WF, Val.WFDict, Val.WFList]

theorem exProps_tidy : Tidy (.dict exProps) := by
  simp [exProps, fnIf, Tidy, TidyEntries, TidyItems]

example : valueFromScenario [(.str "C1", some false), (.str "C2", some false)] (.dict exProps) =
    .ok (.dict [(.str "B", .list [.str "z", .str "w"]), (.str "D", .dict [(.str "E", .int 1), (.str "F", .int 2)])]) := by
  rw [C32_project_partial _ (fun c => if c = "C1" ∨ c = "C2" then some false else none) exProps ?_ exProps_wf
    exProps_flat (exProps_closed _ ⟨false, rfl⟩ ⟨false, rfl⟩)]
  · decide
  · intro c
    simp only [dlookup]
    by_cases h1 : c = "C1"
    · simp [h1]
    · by_cases h2 : c = "C2"
      · simp [h2]
      · have h1' : (Key.str "C1" = Key.str c) = False := by simp [eq_comm, h1]
        have h2' : (Key.str "C2" = Key.str c) = False := by simp [eq_comm, h2]
        simp [h1, h2, h1', h2']

example : ∃ l, objectsDeep [[(.str "C1", some true), (.str "C2", some false)], [(.str "C1", some false), (.str "C2", some false)]]
    (.dict exProps) = .ok l ∧ l.length = 2 := by
  obtain ⟨l, h1, h2, _⟩ := C32_deep_objects_partial
    [[(.str "C1", some true), (.str "C2", some false)], [(.str "C1", some false), (.str "C2", some false)]]
    (.dict exProps) (by simp) (.inl ⟨_, rfl⟩) (by
      intro sc hsc
      simp only [List.mem_cons, List.not_mem_nil, or_false] at hsc
      rcases hsc with rfl | rfl <;> exact exProps_closed _ ⟨_, rfl⟩ ⟨_, rfl⟩)
  exact ⟨l, h1, by simpa using congrArg List.length h2⟩

/-- the hypotheses of `C32_deployment_covered_partial` are met: both conditions of `exOne`, the parameter
being "a" -/
example (res : List (Option Scenario × Val))
    (hres : objectWithoutConditions (fun _ s => s) List.eraseDups (Conditions.init exHash 5 (.dict exOne)).1
      (.dict exProps) = .ok res) :
    ∃ sc, (some sc, Val.dict [(.str "A", .int 1), (.str "B", .list [.str "y", .str "w"]),
      (.str "D", .dict [(.str "E", .int 1), (.str "F", .int 2)])]) ∈ res := by
  refine C32_deployment_covered_partial exHash 5 (fun _ s => s) List.eraseDups exOne _ (fun _ => "a")
    (fun k => k == .str "C1") exProps (fun _ _ _ => Iff.rfl) (fun l c => by simp) exOne_wf exOne_noLit
    (Prod.ext rfl (by decide)) (fun _ _ _ => rfl) ?_ ?_ exProps_wf exProps_flat exProps_tidy
    (exProps_closed _ ⟨_, rfl⟩ ⟨_, rfl⟩) (by decide) (by simp [exProps]) ?_ (.inl (by decide)) _ (by decide)
    rfl res hres
  · intro p vals ha _
    obtain ⟨_, rfl⟩ := exOne_allows ha
    exact ⟨.str "a", by simp, rfl⟩
  · intro p vals ha
    obtain ⟨_, rfl⟩ := exOne_allows ha
    simp [PlainLit]
  · intro c hc
    have : c = "C1" ∨ c = "C2" := by
      have h : ∀ c ∈ ifNames (.dict exProps), c = "C1" ∨ c = "C2" := by decide
      exact h c hc
    rcases this with rfl | rfl
    · exact ⟨_, rfl, exOne_evals "a"⟩
    · exact ⟨_, rfl, Evals.not (Evals.named (v := exEquals (refTo (.str "P1")) (.str "a")) rfl (exOne_evals "a"))⟩

example : objectWithoutConditions (fun _ s => s) List.eraseDups (Conditions.init exHash 5 (.dict exOne)).1
    (.dict exProps) = .ok [
      (some [(.str "C1", some true), (.str "C2", some false)],
        .dict [(.str "A", .int 1), (.str "B", .list [.str "y", .str "w"]),
          (.str "D", .dict [(.str "E", .int 1), (.str "F", .int 2)])]),
      (some [(.str "C1", some false), (.str "C2", some true)],
        .dict [(.str "B", .list [.str "x", .str "w"]),
          (.str "D", .dict [(.str "E", .int 1), (.str "F", .int 2)])])] := rfl

example : NoIf (dropNull (.dict [(.str "A", .none), (.str "B", .dict [(.str "C", .int 1)])])) := by
  refine C32_deep_no_if_left exSc exSc.fn
    (.dict [(.str "A", fnIf (.str "C") (.dict [(.str "Ref", .str "AWS::NoValue")]) (.int 3)),
      (.str "B", .dict [(.str "C", fnIf (.str "C") (.int 1) (.int 2))])]) (fun _ => rfl) ?_ ?_ _ ?_
  · simp only [fnIf, Closed, ClosedEntries, ClosedIf]
    simp [Scenario.fn, exSc, dlookup]
  · simp [fnIf, Tidy, TidyEntries, TidyItems]
  · simp [deepIn, deepEntries, deepIf, fnIf, lookupBranch, hashName, Scenario.value, exSc, Val.toKey?, dlookup]

end CfnLint
