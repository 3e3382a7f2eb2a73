import Verif.Model.Policies
import Verif.Spec.Policies
import Verif.Props.Limits
/-
C84: policies of resources.
-/
namespace CfnLint
open Spec

/-- the resources that are looked at -/
theorem mem_typedResources {t : Val} (hw : t.WF) (ht : ∃ d, t = .dict d) :
    ∃ rs, getResources t = .ok rs ∧ ∀ k r, (k, r) ∈ rs ↔ ResourceAt t k r := by
  obtain ⟨d, rfl⟩ := ht
  unfold getResources ResourceAt
  simp only [Val.getD]
  cases hd : dlookup (Key.str "Resources") d with
  | none =>
    refine ⟨[], rfl, ?_⟩
    intro k r
    simp [look, hd]
  | some v =>
    cases v with
    | dict e =>
      refine ⟨_, rfl, ?_⟩
      intro k r
      have hwe : (Val.dict e).WF := wfDict_mem_cond hw.2 (dlookup_mem hd)
      rw [List.mem_filter, isTyped_iff]
      simp only [look, hd]
      constructor
      · rintro ⟨hm, ty, h⟩
        rw [dlookup_of_mem hwe.1 hm]
        exact ⟨rfl, ty, h⟩
      · rintro ⟨hm, ty, h⟩
        cases hk : dlookup k e with
        | none => rw [hk] at hm; cases hm
        | some x =>
          rw [hk] at hm
          cases hm
          exact ⟨dlookup_mem hk, ty, h⟩
    | _ =>
      refine ⟨[], rfl, ?_⟩
      intro k r
      simp [look, hd]

theorem attrOf_eq (r : Val) (a : String) : attrOf r a = (look r [.str a]).getD .none := by
  cases r with
  | dict d =>
    simp only [attrOf, look]
    cases dlookup (Key.str a) d <;> rfl
  | _ => rfl

theorem inTexts_iff {v : Val} {l : List String} : inTexts v l = true ↔ ∃ s ∈ l, v = .str s := by
  cases v <;> simp [inTexts]

theorem inTexts_type {r : Val} {l : List String} : inTexts (attrOf r "Type") l = true ↔ TypedAs r l := by
  rw [inTexts_iff, attrOf_eq]
  unfold TypedAs
  cases h : look r [.str "Type"] <;> simp

theorem attrOf_truthy {r : Val} {a : String} : (attrOf r a).truthy = true ↔ StatesPolicy r a (attrOf r a) := by
  rw [attrOf_eq]
  unfold StatesPolicy
  cases h : look r [.str a] <;> simp [Val.truthy]

theorem statesPolicy_attrOf {r : Val} {a : String} {v : Val} (h : StatesPolicy r a v) : attrOf r a = v := by
  rw [attrOf_eq, h.1]; rfl

theorem attrOf_silent {r : Val} {a : String} : (attrOf r a).truthy = false ↔ ∀ w, ¬ StatesPolicy r a w := by
  constructor
  · intro h w hs
    rw [statesPolicy_attrOf hs, hs.2] at h
    cases h
  · intro h
    cases e : (attrOf r a).truthy with
    | false => rfl
    | true => exact absurd (attrOf_truthy.1 e) (h _)

/-- what each finding says of the policy -/
inductive PolicyFault (r : Val) : Val → PolicyKind → Prop
  | several {xs} : PolicyFault r (.list xs) .several
  | notText {v} : (∀ s, v ≠ .str s) → (∀ xs, v ≠ .list xs) → PolicyFault r v .notText
  | unknown {s} : s ≠ "Delete" → s ≠ "Retain" → s ≠ "Snapshot" → PolicyFault r (.str s) .unknown
  | snapshot : ¬ TypedAs r snapshotable → PolicyFault r (.str "Snapshot") .snapshot

theorem mem_policyOne {attr : String} {k : Key} {r : Val} {p : Path} {kind : PolicyKind} :
    (p, kind) ∈ policyOne attr (k, r) ↔
      p = [.str "Resources", k, .str attr] ∧ ∃ v, StatesPolicy r attr v ∧ PolicyFault r v kind := by
  have hs : inTexts (attrOf r "Type") snapshotTypes = false ↔ ¬ TypedAs r snapshotable := by
    rw [← Bool.not_eq_true]; exact not_congr inTexts_type
  unfold policyOne
  dsimp only
  by_cases ht : (attrOf r attr).truthy = true
  · rw [if_pos ht]
    have hv := attrOf_truthy.1 ht
    have hu : (∃ v, StatesPolicy r attr v ∧ PolicyFault r v kind) ↔ PolicyFault r (attrOf r attr) kind :=
      ⟨fun ⟨v, h1, h2⟩ => by rw [statesPolicy_attrOf h1]; exact h2, fun h => ⟨_, hv, h⟩⟩
    rw [hu, List.mem_map]
    have hk : (∃ a, a ∈ policyKinds (attrOf r "Type") (attrOf r attr) ∧ (([.str "Resources", k, .str attr] : Path), a) = (p, kind)) ↔
        p = [.str "Resources", k, .str attr] ∧ kind ∈ policyKinds (attrOf r "Type") (attrOf r attr) := by
      constructor
      · rintro ⟨a, ha, e⟩; cases e; exact ⟨rfl, ha⟩
      · rintro ⟨rfl, ha⟩; exact ⟨_, ha, rfl⟩
    rw [hk]
    refine and_congr_right fun _ => ?_
    cases attrOf r attr with
    | str s =>
      simp only [policyKinds, policyValue, List.mem_append]
      constructor
      · rintro (h | h)
        · by_cases hc : policyValues.contains s = true
          · rw [if_pos hc] at h; cases h
          · rw [if_neg hc] at h
            cases List.mem_singleton.1 h
            simp [policyValues] at hc
            exact .unknown hc.1 hc.2.1 hc.2.2
        · by_cases hc : s = "Snapshot" ∧ inTexts (attrOf r "Type") snapshotTypes = false
          · rw [if_pos hc] at h
            cases List.mem_singleton.1 h
            rw [hc.1]
            exact .snapshot (hs.1 hc.2)
          · rw [if_neg hc] at h; cases h
      · intro h
        cases h with
        | unknown h1 h2 h3 => left; simp [policyValues, h1, h2, h3]
        | snapshot h => right; simp [hs.2 h]
        | notText h _ => exact absurd rfl (h s)
    | list xs =>
      simp only [policyKinds, List.mem_singleton]
      constructor
      · rintro rfl; exact .several
      · intro h
        cases h with
        | several => rfl
        | notText _ h => exact absurd rfl (h xs)
    | _ =>
      simp only [policyKinds, policyValue, List.mem_singleton]
      constructor
      · rintro rfl; exact .notText (fun _ e => by cases e) (fun _ e => by cases e)
      · intro h; cases h; rfl
  · rw [if_neg ht]
    have hn := attrOf_silent.1 (by simpa using ht)
    constructor
    · intro h; cases h
    · rintro ⟨_, v, h, _⟩; exact absurd h (hn v)

/-- **C84**: E3035 and E3036 report exactly the stated policies that are at fault, each with the right message -/
theorem C84_kinds {attr : String} {t : Val} (hw : t.WF) (ht : ∃ d, t = .dict d) :
    ∃ l, policyRule attr t = .ok l ∧ ∀ p kind, (p, kind) ∈ l ↔
      ∃ k r v, p = [.str "Resources", k, .str attr] ∧ ResourceAt t k r ∧ StatesPolicy r attr v ∧ PolicyFault r v kind := by
  obtain ⟨rs, e, hrs⟩ := mem_typedResources hw ht
  refine ⟨rs.flatMap (policyOne attr), by unfold policyRule; rw [e], ?_⟩
  intro p kind
  rw [List.mem_flatMap]
  constructor
  · rintro ⟨⟨k, r⟩, hm, h⟩
    obtain ⟨hp, v, hv, hf⟩ := mem_policyOne.1 h
    exact ⟨k, r, v, hp, (hrs k r).1 hm, hv, hf⟩
  · rintro ⟨k, r, v, hp, hr, hv, hf⟩
    exact ⟨(k, r), (hrs k r).2 hr, mem_policyOne.2 ⟨hp, v, hv, hf⟩⟩

/-- a policy is at fault exactly when the resource may not have it -/
theorem policyFault_iff {r v : Val} : (∃ kind, PolicyFault r v kind) ↔ ¬ GoodPolicy r v := by
  constructor
  · rintro ⟨kind, h⟩ hg
    generalize hv : v = w at hg
    cases h with
    | several => cases hg <;> cases hv
    | notText h _ => cases hg <;> exact h _ hv
    | unknown h1 h2 h3 =>
      cases hg with
      | delete => exact h1 (by simpa using hv)
      | retain => exact h2 (by simpa using hv)
      | snapshot => exact h3 (by simpa using hv)
    | snapshot h =>
      cases hg with
      | delete => simp at hv
      | retain => simp at hv
      | snapshot hs => exact h hs
  · intro hg
    cases v with
    | str s =>
      by_cases h1 : s = "Delete"
      · subst h1; exact absurd .delete hg
      by_cases h2 : s = "Retain"
      · subst h2; exact absurd .retain hg
      by_cases h3 : s = "Snapshot"
      · subst h3; exact ⟨_, .snapshot (fun h => hg (.snapshot h))⟩
      exact ⟨_, .unknown h1 h2 h3⟩
    | list xs => exact ⟨_, .several⟩
    | _ => exact ⟨.notText, .notText (fun _ e => by cases e) (fun _ e => by cases e)⟩

/-- **C84** in full: every policy that is written and that the resource may not have is reported, and nothing else -/
def C84_statement : Prop :=
  ∀ (attr : String) (t : Val), t.WF → (∃ d, t = .dict d) → ∃ l, policyRule attr t = .ok l ∧ ∀ k,
    (∃ kind, ([.str "Resources", k, .str attr], kind) ∈ l) ↔
      ∃ r v, ResourceAt t k r ∧ look r [.str attr] = some v ∧ ¬ GoodPolicy r v

/-- **C84**, for policies that are not empty -/
theorem C84_policies_partial {attr : String} {t : Val} (hw : t.WF) (ht : ∃ d, t = .dict d)
    (hn : ∀ k r v, ResourceAt t k r → look r [.str attr] = some v → v.truthy = true) :
    ∃ l, policyRule attr t = .ok l ∧ ∀ k,
      (∃ kind, ([.str "Resources", k, .str attr], kind) ∈ l) ↔
        ∃ r v, ResourceAt t k r ∧ look r [.str attr] = some v ∧ ¬ GoodPolicy r v := by
  obtain ⟨l, e, hl⟩ := C84_kinds (attr := attr) hw ht
  refine ⟨l, e, fun k => ?_⟩
  constructor
  · rintro ⟨kind, h⟩
    obtain ⟨k', r, v, hp, hr, hv, hf⟩ := (hl _ _).1 h
    cases hp
    exact ⟨r, v, hr, hv.1, policyFault_iff.1 ⟨kind, hf⟩⟩
  · rintro ⟨r, v, hr, hv, hg⟩
    obtain ⟨kind, hf⟩ := policyFault_iff.2 hg
    exact ⟨kind, (hl _ _).2 ⟨k, r, v, rfl, hr, ⟨hv, hn k r v hr hv⟩, hf⟩⟩

/-- a template with one resource of a type and with a policy -/
def exPolicy (ty : String) (attr : String) (v : Val) : Val :=
  .dict [(.str "Resources", .dict [(.str "A", .dict [(.str "Type", .str ty), (.str attr, v)])])]

theorem C84_violated : ¬ C84_statement := by
  intro h
  have hw : (exPolicy "AWS::S3::Bucket" "DeletionPolicy" (.str "")).WF := by simp [exPolicy, Val.WF, Val.WFDict]
  obtain ⟨l, e, hl⟩ := h "DeletionPolicy" _ hw ⟨_, rfl⟩
  have e0 : policyRule "DeletionPolicy" (exPolicy "AWS::S3::Bucket" "DeletionPolicy" (.str "")) = .ok [] := by decide +kernel
  rw [e0] at e
  cases e
  obtain ⟨_, hh⟩ := (hl (.str "A")).2 ⟨.dict [(.str "Type", .str "AWS::S3::Bucket"), (.str "DeletionPolicy", .str "")], .str "",
    ⟨by decide +kernel, .str "AWS::S3::Bucket", by decide +kernel, by decide +kernel⟩, by decide +kernel, by intro h; generalize ev : Val.str "" = v at h; cases h <;> simp at ev⟩
  cases hh

example : policyRule "DeletionPolicy" (exPolicy "AWS::S3::Bucket" "DeletionPolicy" (.str "Snapshot")) =
    .ok [([.str "Resources", .str "A", .str "DeletionPolicy"], .snapshot)] := by decide +kernel
example : policyRule "UpdateReplacePolicy" (exPolicy "AWS::RDS::DBCluster" "UpdateReplacePolicy" (.str "Snapshot")) = .ok [] := by
  decide +kernel
example : policyRule "DeletionPolicy" (exPolicy "AWS::S3::Bucket" "DeletionPolicy" (.list [.str "Retain"])) =
    .ok [([.str "Resources", .str "A", .str "DeletionPolicy"], .several)] := by decide +kernel
example : policyRule "DeletionPolicy" (exPolicy "AWS::S3::Bucket" "DeletionPolicy" (.str "Keep")) =
    .ok [([.str "Resources", .str "A", .str "DeletionPolicy"], .unknown)] := by decide +kernel
example : policyRule "DeletionPolicy" (exPolicy "AWS::S3::Bucket" "DeletionPolicy" (.int 3)) =
    .ok [([.str "Resources", .str "A", .str "DeletionPolicy"], .notText)] := by decide +kernel

theorem needsBoth_iff {r : Val} : needsBoth r = true ↔ ¬ TypedAs r versions ∧ HalfKept r := by
  have h1 : inTexts (attrOf r "Type") ["AWS::Lambda::Version", "AWS::Lambda::LayerVersion"] = false ↔ ¬ TypedAs r versions := by
    rw [← Bool.not_eq_true]; exact not_congr inTexts_type
  unfold needsBoth
  rw [Bool.and_eq_true, Bool.not_eq_true', h1]
  refine and_congr_right fun _ => ?_
  rw [Bool.or_eq_true, Bool.and_eq_true, Bool.and_eq_true, Bool.and_eq_true, Bool.and_eq_true, Bool.not_eq_true', Bool.not_eq_true',
    attrOf_silent, attrOf_silent, bne_iff_ne, bne_iff_ne]
  constructor
  · rintro (⟨⟨h1, h2⟩, h3⟩ | ⟨⟨h1, h2⟩, h3⟩)
    · exact .removed (attrOf_truthy.1 h1) h2 h3
    · exact .replaced (attrOf_truthy.1 h2) h3 h1
  · rintro (⟨h1, h2, h3⟩ | ⟨h1, h2, h3⟩)
    · left
      rw [statesPolicy_attrOf h1]
      exact ⟨⟨h1.2, h2⟩, h3⟩
    · right
      rw [statesPolicy_attrOf h1]
      exact ⟨⟨h3, h1.2⟩, h2⟩

/-- a rule that picks resources -/
theorem picked_resources {t : Val} (hw : t.WF) (ht : ∃ d, t = .dict d) {test : Val → Bool} {rule : Val → PyM (List Path)} {P : Val → Prop}
    (hr : ∀ t, rule t = match getResources t with
      | .error e => .error e
      | .ok rs => .ok ((rs.filter (fun kv => test kv.2)).map (fun kv => [.str "Resources", kv.1])))
    (hp : ∀ r, test r = true ↔ P r) :
    ∃ l, rule t = .ok l ∧ ∀ p, p ∈ l ↔ ∃ k r, p = [.str "Resources", k] ∧ ResourceAt t k r ∧ P r := by
  obtain ⟨rs, e, hrs⟩ := mem_typedResources hw ht
  refine ⟨_, by rw [hr, e], ?_⟩
  intro p
  simp only [List.mem_map, List.mem_filter, Prod.exists]
  constructor
  · rintro ⟨k, r, ⟨hm, h⟩, rfl⟩
    exact ⟨k, r, rfl, (hrs k r).1 hm, (hp r).1 h⟩
  · rintro ⟨k, r, rfl, hm, h⟩
    exact ⟨k, r, ⟨(hrs k r).2 hm, (hp r).2 h⟩, rfl⟩

/-- **C84**: W3011 reports exactly the resources, other than versions, which are kept on one occasion and say nothing on the other -/
theorem C84_both {t : Val} (hw : t.WF) (ht : ∃ d, t = .dict d) :
    ∃ l, bothRule t = .ok l ∧ ∀ p, p ∈ l ↔
      ∃ k r, p = [.str "Resources", k] ∧ ResourceAt t k r ∧ ¬ TypedAs r versions ∧ HalfKept r :=
  picked_resources hw ht (test := needsBoth) (fun _ => rfl) (fun _ => needsBoth_iff)

/-- **C84**: I3011 reports exactly the resources that hold data and do not state both policies -/
theorem C84_stateful {t : Val} (hw : t.WF) (ht : ∃ d, t = .dict d) :
    ∃ l, statefulRule t = .ok l ∧ ∀ p, p ∈ l ↔
      ∃ k r, p = [.str "Resources", k] ∧ ResourceAt t k r ∧ TypedAs r stateful ∧
        ¬ ((∃ v, StatesPolicy r "DeletionPolicy" v) ∧ ∃ v, StatesPolicy r "UpdateReplacePolicy" v) := by
  refine picked_resources hw ht (test := needsExplicit)
    (P := fun r => TypedAs r stateful ∧ ¬ ((∃ v, StatesPolicy r "DeletionPolicy" v) ∧ ∃ v, StatesPolicy r "UpdateReplacePolicy" v))
    (fun _ => rfl) (fun r => ?_) 
  have h1 : inTexts (attrOf r "Type") statefulTypes = true ↔ TypedAs r stateful := inTexts_type
  unfold needsExplicit
  rw [Bool.and_eq_true, h1, Bool.or_eq_true, Bool.not_eq_true', Bool.not_eq_true', attrOf_silent, attrOf_silent]
  refine and_congr_right fun _ => ?_
  constructor
  · rintro (h | h) ⟨⟨v, h1⟩, ⟨w, h2⟩⟩
    · exact h v h1
    · exact h w h2
  · intro h
    by_cases h1 : ∃ v, StatesPolicy r "DeletionPolicy" v
    · exact .inr fun w hw => h ⟨h1, w, hw⟩
    · exact .inl fun w hw => h1 ⟨w, hw⟩

/-- **C84**: a resource with both policies stated is reported by neither rule, whatever the policies are -/
theorem C84_explicit {t : Val} (hw : t.WF) (ht : ∃ d, t = .dict d) {k : Key} {r v w : Val} (hr : ResourceAt t k r)
    (h1 : StatesPolicy r "DeletionPolicy" v) (h2 : StatesPolicy r "UpdateReplacePolicy" w) :
    (∃ l, bothRule t = .ok l ∧ [.str "Resources", k] ∉ l) ∧ ∃ l, statefulRule t = .ok l ∧ [.str "Resources", k] ∉ l := by
  obtain ⟨l, e, hl⟩ := C84_both hw ht
  obtain ⟨l', e', hl'⟩ := C84_stateful hw ht
  refine ⟨⟨l, e, fun h => ?_⟩, ⟨l', e', fun h => ?_⟩⟩
  · obtain ⟨k', r', hk, hr', _, hh⟩ := (hl _).1 h
    cases hk
    have e2 := hr.1.symm.trans hr'.1
    cases e2
    cases hh with
    | removed _ _ h => exact h _ h2
    | replaced _ _ h => exact h _ h1
  · obtain ⟨k', r', hk, hr', _, hh⟩ := (hl' _).1 h
    cases hk
    have e2 := hr.1.symm.trans hr'.1
    cases e2
    exact hh ⟨⟨_, h1⟩, ⟨_, h2⟩⟩

example : bothRule (exPolicy "AWS::S3::Bucket" "DeletionPolicy" (.str "Retain")) = .ok [[.str "Resources", .str "A"]] := by decide +kernel
example : bothRule (exPolicy "AWS::S3::Bucket" "UpdateReplacePolicy" (.str "Retain")) = .ok [[.str "Resources", .str "A"]] := by
  decide +kernel
example : bothRule (exPolicy "AWS::S3::Bucket" "DeletionPolicy" (.str "Delete")) = .ok [] := by decide +kernel
example : bothRule (exPolicy "AWS::Lambda::Version" "DeletionPolicy" (.str "Retain")) = .ok [] := by decide +kernel
example : statefulRule (exPolicy "AWS::SQS::Queue" "DeletionPolicy" (.str "Retain")) = .ok [[.str "Resources", .str "A"]] := by
  decide +kernel
example : (exPolicy "AWS::SQS::Queue" "DeletionPolicy" (.str "Retain")).WF := by simp [exPolicy, Val.WF, Val.WFDict]
example : ∀ k r v, ResourceAt (exPolicy "AWS::SQS::Queue" "DeletionPolicy" (.str "Keep")) k r →
    look r [.str "DeletionPolicy"] = some v → v.truthy = true := by
  rintro k r v ⟨h, _⟩ hv
  simp [exPolicy, look, dlookup] at h
  by_cases hk : Key.str "A" = k
  · subst hk
    simp at h
    subst h
    simp [look, dlookup] at hv
    subst hv
    decide
  · simp [hk] at h

end CfnLint
