import Verif.Spec.Modules
import Verif.Lemmas.CheckAll
import Verif.Lemmas.JsonGram
import Verif.Props.Elb
import Verif.Props.JsonSize
import Verif.Props.Zones
/-
C115: modules, serverless resources, packages, filters and the memory of functions.
-/
namespace CfnLint
open Spec

/-! ### modules -/

theorem likeModule_iff {r : List (Key × Val)} : r.any (fun kv => endsModule kv.2) = true ↔ LikeModule r := by
  unfold LikeModule
  rw [List.any_eq_true]
  constructor
  · rintro ⟨⟨k, v⟩, h1, h2⟩
    cases v with
    | str s => exact ⟨k, s, h1, endsWith_iff.1 h2⟩
    | _ => cases h2
  · rintro ⟨k, s, h1, h2⟩
    exact ⟨(k, .str s), h1, endsWith_iff.2 h2⟩

theorem reservedCheck_spec {t globals : Val} (hw : t.WF) {name : Key} {r : List (Key × Val)} (hr : TypedResource t name r)
    (ht : ∀ w, At t [.str "AWS::CloudFormation::Module"] w ∨ At globals [.str "AWS::CloudFormation::Module"] w → (∀ xs, w ≠ .list xs) ∧ ∀ kvs, w ≠ .dict kvs) :
    ∃ l, reservedCheck t globals = .ok l ∧ ∀ p o, (p, o) ∈ l ↔ ∃ n q w, ModuleAt t n ∧ p = [.str "Resources", n, .str "Metadata"] ++ q ++ [.str "AWS::CloudFormation::Module"] ∧
      o = some w ∧ (At t p w ∨ At globals p w) := by
  obtain ⟨top, res, ty, rfl, h1, h2, h3, h4⟩ := hr
  have hw' := hw
  rw [Val.WF] at hw
  have hnd := hw.1
  have hres : (res.map Prod.fst).Nodup := by
    have := at_wf (.key h1 .here) hw'
    rw [Val.WF] at this
    exact this.1
  have hraw : rawResources (.dict top) = .ok res := by
    unfold rawResources
    simp only [Val.getD, dlookup_of_mem hnd h1, Option.getD_some]
  have hsame : ∀ res', (Key.str "Resources", Val.dict res') ∈ top → res' = res := by
    intro res' h
    have := dlookup_of_mem hnd h
    rw [dlookup_of_mem hnd h1] at this
    cases this
    rfl
  have hmod : ∀ n, n ∈ moduleNames res ↔ ModuleAt (.dict top) n := by
    intro n
    unfold moduleNames ModuleAt
    simp only [List.mem_map, List.mem_filter]
    constructor
    · rintro ⟨⟨k, v⟩, ⟨g1, g2⟩, rfl⟩
      unfold isModule at g2
      split at g2
      · rename_i rr e
        dsimp only at e
        subst e
        split at g2
        · rename_i ty' hd
          exact ⟨rr, ty', ⟨top, res, _, rfl, h1, g1, dlookup_mem hd, by simp⟩, dlookup_mem hd, endsWith_iff.1 g2⟩
        · cases g2
      · cases g2
    · rintro ⟨rr, ty', ⟨top', res', ty'', e, g1, g2, g3, g4⟩, g5, g6⟩
      cases e
      cases hsame _ g1
      have hrr : (rr.map Prod.fst).Nodup := by
        have := at_wf (.key h1 (.key g2 .here)) hw'
        rw [Val.WF] at this
        exact this.1
      refine ⟨(n, .dict rr), ⟨g2, ?_⟩, rfl⟩
      simp only [isModule, dlookup_of_mem hrr g5]
      exact endsWith_iff.2 g6
  unfold reservedCheck
  rw [hraw]
  obtain ⟨l, k1, k2⟩ := collectM_spec (as := searchDeepKeys reservedKey (.dict top) globals) (f := reservedAt (moduleNames res))
    (P := fun pw m => m = (pw.1, some pw.2) ∧ ∃ n q, ModuleAt (.dict top) n ∧ pw.1 = [.str "Resources", n, .str "Metadata"] ++ q ++ [.str "AWS::CloudFormation::Module"]) (by
      rintro ⟨p, w⟩ hm
      have hf : Found reservedKey (.dict top) p w ∨ Found reservedKey globals p w := by
        unfold searchDeepKeys at hm
        rcases List.mem_append.1 hm with hm | hm
        · obtain ⟨q, e, h⟩ := (mem_searchVal _ _ _ _ _).1 hm
          simp at e
          subst e
          exact .inl h
        · obtain ⟨q, e, h⟩ := (mem_searchVal _ _ _ _ _).1 hm
          simp at e
          subst e
          exact .inr h
      have hend : ∃ q', p = q' ++ [.str "AWS::CloudFormation::Module"] := by
        rcases hf with h | h <;> exact h.2
      obtain ⟨q', rfl⟩ := hend
      have hat : At (.dict top) (q' ++ [.str "AWS::CloudFormation::Module"]) w ∨ At globals (q' ++ [.str "AWS::CloudFormation::Module"]) w := by
        rcases hf with h | h
        · exact .inl h.1
        · exact .inr h.1
      unfold reservedAt
      rcases q' with _ | ⟨k0, _ | ⟨k1, _ | ⟨k2, q'⟩⟩⟩
      · obtain ⟨g1, g2⟩ := ht w hat
        refine ⟨[], ?_, ?_⟩
        · cases w with
          | list xs => exact absurd rfl (g1 xs)
          | dict kvs => exact absurd rfl (g2 kvs)
          | _ => rfl
        · rintro m
          simp only [List.not_mem_nil, false_iff]
          rintro ⟨-, n, q, -, e⟩
          have := congrArg List.length e
          simp at this
      · refine ⟨[], rfl, fun m => ?_⟩
        simp only [List.not_mem_nil, false_iff]
        rintro ⟨-, n, q, -, e⟩
        have := congrArg List.length e
        simp at this
      · refine ⟨_, rfl, fun m => ?_⟩
        rw [if_neg (by rintro ⟨-, -, h⟩; simp at h)]
        simp only [List.not_mem_nil, false_iff]
        rintro ⟨-, n, q, -, e⟩
        have := congrArg List.length e
        simp at this
      · refine ⟨_, rfl, fun m => ?_⟩
        by_cases hc : k1 ∈ moduleNames res ∧ k0 = .str "Resources" ∧ k2 = .str "Metadata"
        · rw [if_pos hc]
          obtain ⟨c1, rfl, rfl⟩ := hc
          rw [List.mem_singleton]
          exact ⟨fun h => ⟨h, k1, q', (hmod _).1 c1, by simp⟩, fun h => h.1⟩
        · rw [if_neg hc]
          simp only [List.not_mem_nil, false_iff]
          rintro ⟨-, n, q, c1, e⟩
          simp only [List.cons_append, List.nil_append, List.cons.injEq] at e
          obtain ⟨rfl, rfl, rfl, -⟩ := e
          exact hc ⟨(hmod _).2 c1, rfl, rfl⟩)
  refine ⟨l, k1, fun p o => ?_⟩
  rw [k2]
  constructor
  · rintro ⟨⟨p', w⟩, hm, e, n, q, c1, c2⟩
    cases e
    refine ⟨n, q, w, c1, c2, rfl, ?_⟩
    unfold searchDeepKeys at hm
    rcases List.mem_append.1 hm with hm | hm
    · obtain ⟨q, e, h⟩ := (mem_searchVal _ _ _ _ _).1 hm
      simp at e
      subst e
      exact .inl h.1
    · obtain ⟨q, e, h⟩ := (mem_searchVal _ _ _ _ _).1 hm
      simp at e
      subst e
      exact .inr h.1
  · rintro ⟨n, q, w, c1, rfl, rfl, c2⟩
    refine ⟨(_, w), ?_, rfl, n, q, c1, rfl⟩
    unfold searchDeepKeys
    rw [List.mem_append]
    rcases c2 with c2 | c2
    · exact .inl ((mem_searchVal _ _ _ _ _).2 ⟨_, rfl, c2, [.str "Resources", n, .str "Metadata"] ++ q, rfl⟩)
    · exact .inr ((mem_searchVal _ _ _ _ _).2 ⟨_, rfl, c2, [.str "Resources", n, .str "Metadata"] ++ q, rfl⟩)

/-- an empty dictionary for a missing key is as good as null -/
theorem given_iff' {kvs : List (Key × Val)} (hnd : (kvs.map Prod.fst).Nodup) (key : String) :
    ((dlookup (Key.str key) kvs).getD (.dict [])).truthy = true ↔ Given kvs key := by
  rw [← given_iff hnd]
  cases dlookup (Key.str key) kvs <;> simp [Val.truthy]

/-- C115: E5001 finds exactly the reserved keys in the metadata of modules, and the tags and policies of all resources with a text that ends like the type of a module. -/
theorem C115_modules_partial {t globals : Val} (hw : t.WF) {rs : List (Key × Val)} (hrs : getResources t = .ok rs)
    (ht : ∀ w, At t [.str "AWS::CloudFormation::Module"] w ∨ At globals [.str "AWS::CloudFormation::Module"] w → (∀ xs, w ≠ .list xs) ∧ ∀ kvs, w ≠ .dict kvs)
    (hp : ∀ name r v, TypedResource t name r → LikeModule r → (Key.str "Properties", v) ∈ r → ∃ ps, v = .dict ps) :
    ∃ l, modulesRule t globals = .ok l ∧ ∀ p o, (p, o) ∈ l ↔ ModuleFault t globals p o := by
  unfold modulesRule
  rw [hrs]
  obtain ⟨l, k1, k2⟩ := collectM_spec (as := rs) (f := moduleOne t globals) (P := fun kv m => ∃ r, kv.2 = .dict r ∧ LikeModule r ∧
    ((∃ n q w, ModuleAt t n ∧ m.1 = [.str "Resources", n, .str "Metadata"] ++ q ++ [.str "AWS::CloudFormation::Module"] ∧ m.2 = some w ∧ (At t m.1 w ∨ At globals m.1 w)) ∨
     (∃ ps, (Key.str "Properties", Val.dict ps) ∈ r ∧ Given ps "Tags" ∧ m = ([.str "Resources", kv.1, .str "Properties", .str "Tags"], none)) ∨
     (∃ key, (key = "CreationPolicy" ∨ key = "UpdatePolicy") ∧ Given r key ∧ m = ([.str "Resources", kv.1, .str key], none)))) (by
      rintro ⟨name, v⟩ hm
      obtain ⟨r, rfl, hr⟩ := (mem_getResources hw hrs _ _).1 hm
      unfold moduleOne
      dsimp only
      by_cases hl : LikeModule r
      · rw [if_pos (likeModule_iff.2 hl)]
        obtain ⟨a, a1, a2⟩ := reservedCheck_spec hw hr ht
        have hwr := typed_wf hw hr
        have hnd := hwr
        rw [Val.WF] at hnd
        have hnd := hnd.1
        have htags : ∃ b, moduleTags name r = .ok b ∧ ∀ m, m ∈ b ↔ ∃ ps, (Key.str "Properties", Val.dict ps) ∈ r ∧ Given ps "Tags" ∧
            m = ([.str "Resources", name, .str "Properties", .str "Tags"], none) := by
          unfold moduleTags
          cases hd : dlookup (Key.str "Properties") r with
          | none =>
            refine ⟨[], rfl, fun m => ?_⟩
            simp only [List.not_mem_nil, false_iff]
            rintro ⟨ps, h, -⟩
            rw [dlookup_of_mem hnd h] at hd
            cases hd
          | some v =>
            obtain ⟨ps, rfl⟩ := hp name r v hr hl (dlookup_mem hd)
            have hps : (ps.map Prod.fst).Nodup := by
              have := at_wf (.key (dlookup_mem hd) .here) hwr
              rw [Val.WF] at this
              exact this.1
            refine ⟨_, rfl, fun m => ?_⟩
            constructor
            · intro h
              by_cases hg : ((dlookup (Key.str "Tags") ps).getD .none).truthy = true
              · rw [if_pos hg, List.mem_singleton] at h
                exact ⟨ps, dlookup_mem hd, (given_iff hps _).1 hg, h⟩
              · rw [if_neg hg] at h
                cases h
            · rintro ⟨ps', h1, h2, rfl⟩
              rw [dlookup_of_mem hnd h1] at hd
              cases hd
              rw [if_pos ((given_iff hps _).2 h2)]
              simp
        have hpol : ∀ policy m, m ∈ modulePolicy policy name r ↔ Given r policy ∧ m = ([.str "Resources", name, .str policy], none) := by
          intro policy m
          unfold modulePolicy
          by_cases hg : Given r policy
          · rw [if_pos ((given_iff' hnd _).2 hg)]
            simp [hg]
          · rw [if_neg (fun h => hg ((given_iff' hnd _).1 h))]
            simp [hg]
        obtain ⟨b, b1, b2⟩ := htags
        rw [a1, b1]
        refine ⟨_, rfl, ?_⟩
        rintro ⟨p, o⟩
        simp only [List.mem_append, a2, b2, hpol]
        constructor
        · rintro (((h | h) | h) | h)
          · exact ⟨r, rfl, hl, .inl h⟩
          · exact ⟨r, rfl, hl, .inr (.inl h)⟩
          · exact ⟨r, rfl, hl, .inr (.inr ⟨_, .inl rfl, h⟩)⟩
          · exact ⟨r, rfl, hl, .inr (.inr ⟨_, .inr rfl, h⟩)⟩
        · rintro ⟨r', e, -, h | h | ⟨key, rfl | rfl, h⟩⟩
          · exact .inl (.inl (.inl h))
          · cases e
            exact .inl (.inl (.inr h))
          · cases e
            exact .inl (.inr h)
          · cases e
            exact .inr h
      · rw [if_neg (fun h => hl (likeModule_iff.1 h))]
        refine ⟨[], rfl, fun m => ?_⟩
        simp only [List.not_mem_nil, false_iff]
        rintro ⟨r', e, h, -⟩
        cases e
        exact hl h)
  refine ⟨l, k1, fun p o => ?_⟩
  rw [k2]
  constructor
  · rintro ⟨⟨name, v⟩, hm, r, e, hl, h⟩
    obtain ⟨r', e', hr⟩ := (mem_getResources hw hrs _ _).1 hm
    dsimp only at e
    subst e
    cases e'
    rcases h with ⟨n, q, w, c1, c2, c3, c4⟩ | ⟨ps, c1, c2, c3⟩ | ⟨key, c1, c2, c3⟩
    · dsimp only at c2 c3 c4
      subst c2 c3
      rcases c4 with c4 | c4
      · exact .reserved c1 c4
      · exact .inGlobals c1 c4
    · cases c3
      exact .tags hr hl c1 c2
    · cases c3
      exact .policy hr hl c1 c2
  · have hex : ∀ n, ModuleAt t n → ∃ r, (n, Val.dict r) ∈ rs ∧ LikeModule r := by
      rintro n ⟨r, ty, h1, h2, h3⟩
      exact ⟨r, (mem_getResources hw hrs _ _).2 ⟨r, rfl, h1⟩, _, ty, h2, h3⟩
    rintro h
    cases h with
    | reserved c1 c2 =>
      obtain ⟨r, g1, g2⟩ := hex _ c1
      exact ⟨_, g1, r, rfl, g2, .inl ⟨_, _, _, c1, rfl, rfl, .inl c2⟩⟩
    | inGlobals c1 c2 =>
      obtain ⟨r, g1, g2⟩ := hex _ c1
      exact ⟨_, g1, r, rfl, g2, .inl ⟨_, _, _, c1, rfl, rfl, .inr c2⟩⟩
    | tags c1 c2 c3 c4 =>
      exact ⟨(_, .dict _), (mem_getResources hw hrs _ _).2 ⟨_, rfl, c1⟩, _, rfl, c2, .inr (.inl ⟨_, c3, c4, rfl⟩)⟩
    | policy c1 c2 c3 c4 =>
      exact ⟨(_, .dict _), (mem_getResources hw hrs _ _).2 ⟨_, rfl, c1⟩, _, rfl, c2, .inr (.inr ⟨_, c3, c4, rfl⟩)⟩

/-- C115, as one would want it: only modules have findings. -/
def C115_modules_statement : Prop := ∀ t l p o, t.WF → modulesRule t .none = .ok l → (p, o) ∈ l → ∃ name r, ModuleAt t name ∧ p = .str "Resources" :: name :: r

/-- C115: a bucket with tags whose condition is called like a module is taken for a module. -/
theorem C115_modules_violated : ¬ C115_modules_statement := by
  intro h
  obtain ⟨name, r, ⟨r', ty, ⟨top, res, ty', e, h1, h2, h3, h4⟩, h5, h6⟩, e2⟩ := h (.dict [(.str "Resources", .dict [(.str "B", .dict [(.str "Type", .str "AWS::S3::Bucket"),
    (.str "Condition", .str "A::MODULE"), (.str "Properties", .dict [(.str "Tags", .list [.str "x"])])])])]) [([.str "Resources", .str "B", .str "Properties", .str "Tags"], none)]
    [.str "Resources", .str "B", .str "Properties", .str "Tags"] none (by simp [Val.WF, Val.WFDict, Val.WFList]) (by rfl) (List.mem_singleton.2 rfl)
  cases e
  simp only [List.mem_singleton, Prod.mk.injEq, true_and, Val.dict.injEq] at h1
  subst h1
  simp only [List.mem_singleton, Prod.mk.injEq, Val.dict.injEq] at h2
  obtain ⟨-, rfl⟩ := h2
  simp at h5
  subst h5
  revert h6
  decide +kernel

/-- C115: the reserved key at the top of a template with a module ends the rule with an error. -/
theorem C115_module_raises {t globals : Val} (hw : t.WF) {name : Key} {r : List (Key × Val)} (hr : TypedResource t name r) (hl : LikeModule r) {kvs : List (Key × Val)}
    (hk : At t [.str "AWS::CloudFormation::Module"] (.dict kvs)) : ∃ e, modulesRule t globals = .error e := by
  have hres : ∃ rs, getResources t = .ok rs := by
    obtain ⟨top, res, ty, rfl, h1, -⟩ := hr
    rw [Val.WF] at hw
    exact ⟨res.filter isTyped, by simp only [getResources, Val.getD, dlookup_of_mem hw.1 h1, Option.getD_some]⟩
  obtain ⟨rs, hrs⟩ := hres
  have hmem := (mem_getResources hw hrs name (.dict r)).2 ⟨r, rfl, hr⟩
  have hch : ∃ e, reservedCheck t globals = .error e := by
    unfold reservedCheck
    split
    · exact ⟨_, rfl⟩
    · rename_i res h
      cases hc : collectM (reservedAt (moduleNames res)) (searchDeepKeys reservedKey t globals) with
      | error e => exact ⟨e, rfl⟩
      | ok l =>
        obtain ⟨l', h'⟩ := collectM_each hc ([.str "AWS::CloudFormation::Module"], .dict kvs) (by
          unfold searchDeepKeys
          exact List.mem_append_left _ ((mem_searchVal _ _ _ _ _).2 ⟨_, rfl, hk, [], rfl⟩))
        cases h'
  obtain ⟨e, he⟩ := hch
  unfold modulesRule
  rw [hrs]
  dsimp only
  cases hc : collectM (moduleOne t globals) rs with
  | error e => exact ⟨e, rfl⟩
  | ok l =>
    obtain ⟨l', h'⟩ := collectM_each hc _ hmem
    unfold moduleOne at h'
    simp only [likeModule_iff.2 hl, if_true, he] at h'
    cases h'

/-! ### the serverless transform -/

/-- C115: E3038 has its one finding exactly when there are serverless resources and not the transform. -/
theorem C115_serverless {top : List (Key × Val)} (hw : (Val.dict top).WF) :
    ∃ l, serverlessRule (.dict top) = .ok l ∧ ∀ p, p ∈ l ↔ p = [.str "Transform"] ∧ UsesServerless (.dict top) ∧ ¬ HasServerless (.dict top) := by
  have hnd := hw
  rw [Val.WF] at hnd
  have hnd := hnd.1
  have hhas : ((transformsOf ((dlookup (Key.str "Transform") top).getD (.list []))).any (fun x => x == Val.str "AWS::Serverless-2016-10-31") = true) ↔ HasServerless (.dict top) := by
    unfold HasServerless
    rw [List.any_eq_true]
    constructor
    · rintro ⟨x, h1, h2⟩
      rw [beq_iff_eq] at h2
      subst h2
      cases hd : dlookup (Key.str "Transform") top with
      | none => rw [hd] at h1; cases h1
      | some v =>
        rw [hd] at h1
        simp only [Option.getD_some] at h1
        unfold transformsOf at h1
        split at h1
        · exact .inr ⟨_, .key (dlookup_mem hd) .here, h1⟩
        · rw [List.mem_singleton] at h1
          subst h1
          exact .inl (.key (dlookup_mem hd) .here)
    · rintro (h | ⟨xs, h, h'⟩)
      · rw [at_dict_one] at h
        rw [dlookup_of_mem hnd h]
        exact ⟨_, List.mem_singleton.2 rfl, by simp⟩
      · rw [at_dict_one] at h
        rw [dlookup_of_mem hnd h]
        exact ⟨_, h', by simp⟩
  have hrs : ∃ rs, getResources (.dict top) = .ok rs := by
    unfold getResources
    simp only [Val.getD]
    split
    · rename_i h; cases h
    · exact ⟨_, rfl⟩
    · exact ⟨_, rfl⟩
  obtain ⟨rs, hrs⟩ := hrs
  have huse : rs.any (fun kv => serverlessType kv.2) = true ↔ UsesServerless (.dict top) := by
    unfold UsesServerless
    rw [List.any_eq_true]
    constructor
    · rintro ⟨⟨k, v⟩, h1, h2⟩
      obtain ⟨r, rfl, hr⟩ := (mem_getResources hw hrs _ _).1 h1
      unfold serverlessType at h2
      dsimp only at h2
      split at h2
      · rename_i s hd
        refine ⟨k, r, s, hr, dlookup_mem hd, ?_⟩
        unfold startsWith at h2
        exact List.isPrefixOf_iff_prefix.1 h2
      · cases h2
    · rintro ⟨k, r, s, hr, h1, h2⟩
      have hr' := typed_wf hw hr
      rw [Val.WF] at hr'
      refine ⟨(k, .dict r), (mem_getResources hw hrs _ _).2 ⟨r, rfl, hr⟩, ?_⟩
      unfold serverlessType
      simp only [dlookup_of_mem hr'.1 h1]
      unfold startsWith
      exact List.isPrefixOf_iff_prefix.2 h2
  unfold serverlessRule
  simp only [Val.getD]
  by_cases h1 : HasServerless (.dict top)
  · rw [if_pos (hhas.2 h1)]
    exact ⟨[], rfl, fun p => by simp [h1]⟩
  · rw [if_neg (fun h => h1 (hhas.1 h)), hrs]
    refine ⟨_, rfl, fun p => ?_⟩
    by_cases h2 : UsesServerless (.dict top)
    · rw [if_pos (huse.2 h2)]
      simp [h1, h2]
    · rw [if_neg (fun h => h2 (huse.1 h))]
      simp [h2]

/-! ### properties for packages -/

theorem namesPackage_iff (ty key : String) : (ty, key) ∈ packagedKeys ↔ NamesPackage ty key := by
  constructor
  · intro h
    simp only [packagedKeys, List.mem_cons, Prod.mk.injEq, List.not_mem_nil, or_false] at h
    rcases h with ⟨rfl, rfl⟩ | ⟨rfl, rfl⟩ | ⟨rfl, rfl⟩ | ⟨rfl, rfl⟩ | ⟨rfl, rfl⟩
    · exact .api
    · exact .function
    · exact .layer
    · exact .application
    · exact .machine
  · intro h
    cases h <;> decide

/-- C115: W3002 finds exactly the texts given for the properties that name packages. -/
theorem C115_packages (n : Nat) {ty key : String} (hk : NamesPackage ty key) {kvs : List (Key × Val)} (hnd : (kvs.map Prod.fst).Nodup)
    (hnull : ∀ v, (Key.str key, v) ∈ kvs → v ≠ .none ∧ ∀ q, ¬ Leaf v q .none) (path : Path) :
    ∃ l, packagedRule (n + 2) ty (.dict kvs) path = .ok l ∧ ∀ m, m ∈ l ↔ ∃ v q s, (Key.str key, v) ∈ kvs ∧ PropValue v q (.str s) ∧ m = path ++ .str key :: q := by
  have hl : dlookup ty packagedKeys = some key := dlookup_of_mem (by decide +kernel) ((namesPackage_iff ty key).2 hk)
  unfold packagedRule
  rw [hl]
  obtain ⟨l, h1, h2⟩ := checkValue_given (h := { value := some packagedValue }) (path := path) (P := fun u p m => Known u ∧ (∃ s, u = .str s) ∧ m = p) hnd hnull n (by
    intro v q u _ _ p
    apply checkOne_valueOnly
    intro _
    unfold packagedValue
    split
    · exact ⟨[p], rfl, fun m => by simp⟩
    · rename_i hne
      refine ⟨[], rfl, fun m => ?_⟩
      simp only [List.not_mem_nil, false_iff]
      rintro ⟨⟨s, rfl⟩, -⟩
      exact hne s rfl)
  refine ⟨l, h1, fun m => ?_⟩
  rw [h2]
  constructor
  · rintro ⟨v, q, u, a, b, -, ⟨s, rfl⟩, rfl⟩
    exact ⟨v, q, s, a, b, rfl⟩
  · rintro ⟨v, q, s, a, b, rfl⟩
    exact ⟨v, q, _, a, b, noCall_known.1 (fun name a _ e => by cases e), ⟨s, rfl⟩, rfl⟩

/-- C115: other types have no findings. -/
theorem C115_other_types (fuel : Nat) {ty : String} (h : ∀ key, ¬ NamesPackage ty key) (props : Val) (path : Path) : packagedRule fuel ty props path = .ok [] := by
  unfold packagedRule
  cases hd : dlookup ty packagedKeys with
  | none => rfl
  | some key => exact absurd ((namesPackage_iff ty key).1 (dlookup_mem hd)) (h key)

/-! ### filters -/

mutual
theorem spaced_gram : ∀ (v : Val), FloatsAreNumbers v → Gram (spaced v) (.value (jsonOf v))
  | .none, _ => .null
  | .bool true, _ => .true
  | .bool false, _ => .false
  | .int i, _ => by rw [spaced, intText_eq]; exact .number (dumpInt_number i)
  | .flt r, h => .number (h [] r .here)
  | .str s, _ => by
    rw [spaced, encodeText_eq (scalar_codes s)]
    exact .string (dumpText_chars (scalar_codes s))
  | .list [], _ => .emptyArr blank_nil
  | .list (v :: vs), h => by
    rw [spaced, jsonOf]
    exact .arr (spacedItems_gram (v :: vs) (by simp) (fun i x hx => fun p r hp => h (.int i :: p) r (.idx hx hp)))
  | .dict [], _ => .emptyObj blank_nil
  | .dict ((k, v) :: kvs), h => by
    rw [spaced, jsonOf]
    exact .obj (spacedMembers_gram ((k, v) :: kvs) (by simp) (fun kv hm => fun p r hp => h (kv.1 :: p) r (.key hm hp)))

theorem spacedItems_gram : ∀ (vs : List Val), vs ≠ [] → (∀ (i : Nat) x, vs[i]? = some x → FloatsAreNumbers x) → Gram (spacedItems vs) (.items (jsonItems vs))
  | [], h, _ => absurd rfl h
  | [v], _, h => by
    have := Gram.item blank_nil (spaced_gram v (h 0 v rfl)) blank_nil
    simpa [spacedItems, jsonItems] using this
  | v :: w :: vs, _, h => by
    have := Gram.items blank_nil (spaced_gram v (h 0 v rfl)) blank_nil (gram_items_space (spacedItems_gram (w :: vs) (by simp) (fun i x hx => h (i + 1) x hx)))
    simpa [spacedItems, jsonItems] using this

theorem spacedMembers_gram : ∀ (kvs : List (Key × Val)), kvs ≠ [] → (∀ kv ∈ kvs, FloatsAreNumbers kv.2) → Gram (spacedMembers kvs) (.members (jsonMembers kvs))
  | [], h, _ => absurd rfl h
  | [(k, v)], _, h => by
    obtain ⟨s, h1, h2⟩ := memberText_chars k
    have := Gram.member blank_nil h2 blank_nil blank_space (spaced_gram v (h _ List.mem_cons_self)) blank_nil
    simpa [spacedMembers, jsonMembers, h1] using this
  | (k, v) :: kv :: kvs, _, h => by
    obtain ⟨s, h1, h2⟩ := memberText_chars k
    have := Gram.members blank_nil h2 blank_nil blank_space (spaced_gram v (h _ List.mem_cons_self)) blank_nil
      (gram_members_space (spacedMembers_gram (kv :: kvs) (by simp) (fun kv hm => h kv (List.mem_cons_of_mem _ hm))))
    simpa [spacedMembers, jsonMembers, h1] using this
end

theorem gram_value_det {s : List Char} {v w : JVal} (h1 : Gram s (.value v)) (h2 : Gram s (.value w)) : v = w := by
  have a := read_gram readsHex_strict h1 (2 * s.length + 1) [] (by omega) (by intro c hc; simp at hc)
  have b := read_gram readsHex_strict h2 (2 * s.length + 1) [] (by omega) (by intro c hc; simp at hc)
  rw [a] at b
  cases b
  rfl

theorem dumpCode_digit {c : Char} (h : c = '-' ∨ ('0' ≤ c ∧ c ≤ '9')) : dumpCode c.toNat = [c] := by
  have : ∀ c ∈ ['-', '0', '1', '2', '3', '4', '5', '6', '7', '8', '9'], dumpCode c.toNat = [c] := by decide +kernel
  apply this
  rcases h with rfl | ⟨h1, h2⟩
  · simp
  · have h3 : 48 ≤ c.toNat := h1
    have h4 : c.toNat ≤ 57 := h2
    have h5 : c = Char.ofNat c.toNat := (Char.ofNat_toNat c).symm
    rw [h5]
    generalize c.toNat = n at h3 h4
    interval_cases n <;> decide

theorem dumpText_digits : ∀ {s : List Char}, (∀ c ∈ s, c = '-' ∨ ('0' ≤ c ∧ c ≤ '9')) → dumpText (s.map Char.toNat) = s
  | [], _ => rfl
  | c :: s, h => by
    have := dumpText_digits (s := s) (fun c hc => h c (List.mem_cons_of_mem _ hc))
    unfold dumpText at this ⊢
    rw [List.map_cons, List.flatMap_cons, this, dumpCode_digit (h c List.mem_cons_self)]
    rfl

theorem memberText_dump (k : Key) : memberText k = '"' :: (dumpText (memberName k) ++ ['"']) := by
  cases k with
  | str s => exact encodeText_eq (scalar_codes s)
  | int i =>
    rw [memberText, memberName, intText_eq, dumpText_digits]
    intro c hc
    cases i with
    | ofNat n => exact .inr ((dumpNat_spec n).1.2 c hc)
    | negSucc n =>
      rcases List.mem_cons.1 hc with rfl | hc
      · exact .inl rfl
      · exact .inr ((dumpNat_spec (n + 1)).1.2 c hc)

mutual
theorem spaced_dump : ∀ (v : Val), spaced v = dump (jsonOf v)
  | .none => rfl
  | .bool true => rfl
  | .bool false => rfl
  | .int i => by rw [spaced, intText_eq]; rfl
  | .flt r => rfl
  | .str s => encodeText_eq (scalar_codes s)
  | .list xs => by rw [spaced, spacedItems_dump xs]; rfl
  | .dict kvs => by rw [spaced, spacedMembers_dump kvs]; rfl

theorem spacedItems_dump : ∀ (vs : List Val), spacedItems vs = dumpItems (jsonItems vs)
  | [] => rfl
  | [v] => by rw [spacedItems, spaced_dump v]; simp [jsonItems, dumpItems]
  | v :: w :: vs => by rw [spacedItems, spaced_dump v, spacedItems_dump (w :: vs)]; simp [jsonItems, dumpItems]

theorem spacedMembers_dump : ∀ (kvs : List (Key × Val)), spacedMembers kvs = dumpMembers (jsonMembers kvs)
  | [] => rfl
  | [(k, v)] => by rw [spacedMembers, spaced_dump v, memberText_dump]; simp [jsonMembers, dumpMembers]
  | (k, v) :: kv :: kvs => by
    rw [spacedMembers, spaced_dump v, memberText_dump, spacedMembers_dump (kv :: kvs)]
    obtain ⟨k', v'⟩ := kv
    simp [jsonMembers, dumpMembers]
end

/-- the texts of two values are equal exactly when they are the same value of JSON -/
theorem spaced_iff {v w : Val} (hv : FloatsAreNumbers v) (hw : FloatsAreNumbers w) : spaced v = spaced w ↔ jsonOf v = jsonOf w := by
  constructor
  · intro h
    have h1 := spaced_gram v hv
    rw [h] at h1
    exact gram_value_det h1 (spaced_gram w hw)
  · intro h
    rw [spaced_dump, spaced_dump, h]

theorem filterMap_getElem? {α β : Type} {f : α → Option β} : ∀ {l : List α} {n : Nat} {y : β},
    (l.filterMap f)[n]? = some y ↔ ∃ a x b, l = a ++ x :: b ∧ f x = some y ∧ (a.filterMap f).length = n
  | [], n, y => by simp
  | z :: l, n, y => by
    cases hz : f z with
    | none =>
      rw [List.filterMap_cons_none hz, filterMap_getElem?]
      constructor
      · rintro ⟨a, x, b, rfl, h1, h2⟩
        exact ⟨z :: a, x, b, rfl, h1, by rw [List.filterMap_cons_none hz, h2]⟩
      · rintro ⟨_ | ⟨z', a⟩, x, b, e, h1, h2⟩
        · cases e
          rw [hz] at h1
          cases h1
        · cases e
          rw [List.filterMap_cons_none hz] at h2
          exact ⟨a, x, b, rfl, h1, h2⟩
    | some w =>
      rw [List.filterMap_cons_some hz]
      cases n with
      | zero =>
        simp only [List.getElem?_cons_zero, Option.some.injEq]
        constructor
        · rintro rfl
          exact ⟨[], z, l, rfl, hz, rfl⟩
        · rintro ⟨_ | ⟨z', a⟩, x, b, e, h1, h2⟩
          · cases e
            rw [hz] at h1
            cases h1
            rfl
          · cases e
            rw [List.filterMap_cons_some hz] at h2
            cases h2
      | succ n =>
        rw [List.getElem?_cons_succ, filterMap_getElem?]
        constructor
        · rintro ⟨a, x, b, rfl, h1, h2⟩
          exact ⟨z :: a, x, b, rfl, h1, by rw [List.filterMap_cons_some hz, List.length_cons, h2]⟩
        · rintro ⟨_ | ⟨z', a⟩, x, b, e, h1, h2⟩
          · cases h2
          · cases e
            rw [List.filterMap_cons_some hz, List.length_cons] at h2
            exact ⟨a, x, b, rfl, h1, by omega⟩

/-- the names of a group -/
def namesOf (g : List Char) (gs : List (List Char × List Key)) : List Key := (dlookup g gs).getD []

theorem appendName_names (g g' : List Char) (name : Key) : ∀ (gs : List (List Char × List Key)),
    namesOf g (appendName g' name gs) = namesOf g gs ++ (if g' = g then [name] else [])
  | [] => by
    by_cases h : g' = g <;> simp [appendName, namesOf, dlookup, h]
  | (h, names) :: gs => by
    have ih := appendName_names g g' name gs
    unfold namesOf at ih ⊢
    unfold appendName
    by_cases h1 : h = g'
    · subst h1
      rw [if_pos rfl]
      by_cases h2 : h = g
      · simp [dlookup, h2]
      · simp [dlookup, h2]
    · rw [if_neg h1]
      by_cases h2 : h = g
      · subst h2
        simp [dlookup, Ne.symm h1]
      · simpa [dlookup, h2] using ih

theorem appendName_keys (g' : List Char) (name : Key) : ∀ (gs : List (List Char × List Key)), (gs.map Prod.fst).Nodup → ((appendName g' name gs).map Prod.fst).Nodup
  | [], _ => by simp [appendName]
  | (h, names) :: gs, hn => by
    unfold appendName
    by_cases h1 : h = g'
    · rw [if_pos h1]
      simpa using hn
    · rw [if_neg h1]
      rw [List.map_cons, List.nodup_cons] at hn ⊢
      refine ⟨?_, appendName_keys g' name gs hn.2⟩
      have hk : ∀ x, x ∈ (appendName g' name gs).map Prod.fst → x ∈ gs.map Prod.fst ∨ x = g' := by
        intro x
        clear hn
        induction gs with
        | nil => simp [appendName]
        | cons a gs ih =>
          obtain ⟨a1, a2⟩ := a
          unfold appendName
          split
          · rename_i e
            rintro hx
            left
            simpa using hx
          · rintro hx
            simp only [List.map_cons, List.mem_cons] at hx ⊢
            rcases hx with hx | hx
            · exact .inl (.inl hx)
            · rcases ih hx with hx | hx
              · exact .inl (.inr hx)
              · exact .inr hx
      intro hx
      rcases hk _ hx with hx | hx
      · exact hn.1 hx
      · exact h1 hx

/-- the text of the group of a filter -/
def groupText (r : List (Key × Val)) : Option (List Char) :=
  match dlookup (Key.str "Properties") r with
  | some (.dict ps) => some (spaced ((dlookup (Key.str "LogGroupName") ps).getD .none))
  | _ => none

theorem logGroups_spec : ∀ (rs : List (Key × List (Key × Val))) (gs : List (List Char × List Key)), (gs.map Prod.fst).Nodup → (∀ nr ∈ rs, (groupText nr.2).isSome = true) →
    ∃ out, logGroups rs gs = .ok out ∧ (out.map Prod.fst).Nodup ∧
      ∀ g, namesOf g out = namesOf g gs ++ rs.filterMap (fun nr => if groupText nr.2 = some g then some nr.1 else none)
  | [], gs, hn, _ => ⟨gs, rfl, hn, by simp⟩
  | (name, r) :: rs, gs, hn, h => by
    have h0 := h (name, r) List.mem_cons_self
    dsimp only at h0
    cases hg : groupText r with
    | none => rw [hg] at h0; cases h0
    | some tx =>
      obtain ⟨out, h1, h2, h3⟩ := logGroups_spec rs (appendName tx name gs) (appendName_keys tx name gs hn) (fun nr hm => h nr (List.mem_cons_of_mem _ hm))
      refine ⟨out, ?_, h2, fun g => ?_⟩
      · unfold groupText at hg
        split at hg
        · rename_i ps hd
          cases hg
          rw [logGroups, hd]
          simpa [Val.getD] using h1
        · cases hg
      · rw [h3, appendName_names, List.append_assoc]
        congr 1
        by_cases e : tx = g
        · subst e
          rw [List.filterMap_cons_some (b := name) (by simp [hg])]
          simp
        · rw [List.filterMap_cons_none (by simp [hg, e]), if_neg e]
          simp

/-- the name of the resource when it is a filter of the group with this text -/
def filterName (g : List Char) (kv : Key × Val) : Option Key :=
  match kv.2 with
  | .dict r => if (dlookup (Key.str "Type") r).getD .none = .str "AWS::Logs::SubscriptionFilter" ∧ groupText r = some g then some kv.1 else none
  | _ => none

theorem filterName_some {g : List Char} {k k' : Key} {v : Val} : filterName g (k, v) = some k' ↔
    ∃ r ps, v = .dict r ∧ dlookup (Key.str "Type") r = some (.str "AWS::Logs::SubscriptionFilter") ∧ dlookup (Key.str "Properties") r = some (.dict ps) ∧
      spaced ((dlookup (Key.str "LogGroupName") ps).getD .none) = g ∧ k' = k := by
  unfold filterName
  cases v with
  | dict r =>
    dsimp only
    constructor
    · intro h
      split at h
      · rename_i hc
        cases h
        obtain ⟨h1, h2⟩ := hc
        unfold groupText at h2
        split at h2
        · rename_i ps hd
          cases h2
          refine ⟨r, ps, rfl, ?_, hd, rfl, rfl⟩
          cases ht : dlookup (Key.str "Type") r with
          | none => rw [ht] at h1; cases h1
          | some w => rw [ht] at h1; simp at h1; rw [h1]
        · cases h2
      · cases h
    · rintro ⟨r', ps, e, h1, h2, rfl, rfl⟩
      cases e
      rw [if_pos ⟨by rw [h1]; rfl, by simp [groupText, h2]⟩]
  | _ => simp

/-- the filters of a template can be counted: they have properties, and the floats of their groups can be written -/
def FiltersPlain (t : Val) : Prop :=
  ∀ name r, (name, r) ∈ resourcesOfType ["AWS::Logs::SubscriptionFilter"] t → ∃ ps, (Key.str "Properties", Val.dict ps) ∈ r ∧
    ∀ v, (Key.str "LogGroupName", v) ∈ ps → FloatsAreNumbers v

theorem filterOf_det {kv : Key × Val} {j j' : JVal} (hw : kv.2.WF) (h : FilterOf kv j) (h' : FilterOf kv j') : j = j' := by
  obtain ⟨r, ps, e, h1, h2, h3⟩ := h
  obtain ⟨r', ps', e', h1', h2', h3'⟩ := h'
  rw [e] at e' hw
  cases e'
  have hps := at_wf (.key h2 .here) hw
  rw [Val.WF] at hw hps
  have := dlookup_of_mem hw.1 h2
  rw [dlookup_of_mem hw.1 h2'] at this
  cases this
  rcases h3 with ⟨v, a, rfl⟩ | ⟨a, rfl⟩
  · rcases h3' with ⟨v', a', rfl⟩ | ⟨a', rfl⟩
    · have := dlookup_of_mem hps.1 a
      rw [dlookup_of_mem hps.1 a'] at this
      cases this
      rfl
    · exact absurd a (a' v)
  · rcases h3' with ⟨v', a', rfl⟩ | ⟨a', rfl⟩
    · exact absurd a' (a v')
    · rfl

/-- the filters are those whose group has the text -/
theorem filterOf_iff {name : Key} {r : List (Key × Val)} (hw : (Val.dict r).WF) (hty : (Key.str "Type", Val.str "AWS::Logs::SubscriptionFilter") ∈ r)
    {ps : List (Key × Val)} (hp : (Key.str "Properties", Val.dict ps) ∈ r) (j : JVal) :
    FilterOf (name, .dict r) j ↔ j = jsonOf ((dlookup (Key.str "LogGroupName") ps).getD .none) := by
  have hps := at_wf (.key hp .here) hw
  rw [Val.WF] at hps
  have hex : FilterOf (name, .dict r) (jsonOf ((dlookup (Key.str "LogGroupName") ps).getD .none)) := by
    refine ⟨r, ps, rfl, hty, hp, ?_⟩
    cases hd : dlookup (Key.str "LogGroupName") ps with
    | none =>
      refine .inr ⟨fun v h => ?_, rfl⟩
      rw [dlookup_of_mem hps.1 h] at hd
      cases hd
    | some v => exact .inl ⟨v, dlookup_mem hd, rfl⟩
  exact ⟨fun h => filterOf_det hw h hex, fun h => h ▸ hex⟩

/-- C115: E2529 finds exactly the third filter of each log group. -/
theorem C115_filters {t : Val} (hw : t.WF) (hp : FiltersPlain t) :
    ∃ l, filtersRule t = .ok l ∧ ∀ p, p ∈ l ↔ ∃ name, ThirdFilter t name ∧ p = [.str "Resources", name] := by
  have hsome : ∀ nr ∈ resourcesOfType ["AWS::Logs::SubscriptionFilter"] t, (groupText nr.2).isSome = true := by
    rintro ⟨name, r⟩ hm
    obtain ⟨ps, h1, -⟩ := hp name r hm
    have hd : dlookup (Key.str "Properties") r = some (.dict ps) := by
      obtain ⟨top, rs, ty, rfl, h3, h4, h5, h6⟩ := (resourcesOfType_iff (List.cons_ne_nil _ _) _ _).1 hm
      have := at_wf (.key (dlookup_mem h3) (.key h4 .here)) hw
      rw [Val.WF] at this
      exact dlookup_of_mem this.1 h1
    simp [groupText, hd]
  obtain ⟨out, h1, h2, h3⟩ := logGroups_spec (resourcesOfType ["AWS::Logs::SubscriptionFilter"] t) [] (by simp) hsome
  refine ⟨_, by simp only [filtersRule, h1]; rfl, fun p => ?_⟩
  have hmem : p ∈ out.flatMap thirdName ↔
      ∃ g name, (namesOf g out)[2]? = some name ∧ p = [.str "Resources", name] := by
    rw [List.mem_flatMap]
    constructor
    · rintro ⟨⟨g, names⟩, h4, h5⟩
      unfold thirdName at h5
      split at h5
      · rename_i name h6
        rw [List.mem_singleton] at h5
        exact ⟨g, name, by unfold namesOf; rw [dlookup_of_mem h2 h4]; exact h6, h5⟩
      · cases h5
    · rintro ⟨g, name, h4, h5⟩
      unfold namesOf at h4
      cases hd : dlookup g out with
      | none => rw [hd] at h4; simp at h4
      | some names =>
        rw [hd] at h4
        simp only [Option.getD_some] at h4
        exact ⟨(g, names), dlookup_mem hd, by simp [thirdName, h4, h5]⟩
  rw [hmem]
  have hempty : ∀ g, namesOf g [] = [] := fun g => rfl
  simp only [h3, hempty, List.nil_append]
  by_cases hres : ∃ top rs, t = .dict top ∧ (Key.str "Resources", Val.dict rs) ∈ top
  · obtain ⟨top, rs, rfl, hrs⟩ := hres
    have hwt := hw
    rw [Val.WF] at hwt
    have hwr := at_wf (.key hrs .here) hw
    have hnd := hwr
    rw [Val.WF] at hnd
    have hnd := hnd.1
    have hlist : ∀ g, (resourcesOfType ["AWS::Logs::SubscriptionFilter"] (.dict top)).filterMap (fun nr => if groupText nr.2 = some g then some nr.1 else none) =
        rs.filterMap (filterName g) := by
      intro g
      unfold resourcesOfType
      simp only [dlookup_of_mem hwt.1 hrs, List.filterMap_filterMap]
      congr 1
      funext kv
      unfold filterName
      obtain ⟨k, v⟩ := kv
      cases v with
      | dict r =>
        dsimp only
        by_cases hty : (dlookup (Key.str "Type") r).getD .none = .str "AWS::Logs::SubscriptionFilter"
        · simp [hty]
        · have : (Val.str "AWS::Logs::SubscriptionFilter" == (dlookup (Key.str "Type") r).getD .none) = false := by
            rw [beq_eq_false_iff_ne]
            exact Ne.symm hty
          simp [hty, this]
      | _ => rfl
    have hplain : ∀ name r, (name, Val.dict r) ∈ rs → (Key.str "Type", Val.str "AWS::Logs::SubscriptionFilter") ∈ r →
        ∃ ps, (Key.str "Properties", Val.dict ps) ∈ r ∧ ∀ v, (Key.str "LogGroupName", v) ∈ ps → FloatsAreNumbers v := by
      intro name r h4 h5
      have hr := at_wf (.key h4 .here) hwr
      rw [Val.WF] at hr
      refine hp name r ((resourcesOfType_iff (List.cons_ne_nil _ _) _ _).2 ⟨top, rs, _, rfl, dlookup_of_mem hwt.1 hrs, h4, dlookup_of_mem hr.1 h5, by simp⟩)
    have hfloat : ∀ ps : List (Key × Val), (∀ v, (Key.str "LogGroupName", v) ∈ ps → FloatsAreNumbers v) → FloatsAreNumbers ((dlookup (Key.str "LogGroupName") ps).getD .none) := by
      intro ps h
      cases hd : dlookup (Key.str "LogGroupName") ps with
      | none =>
        rintro p r h
        cases h
      | some v => exact h v (dlookup_mem hd)
    have hone : ∀ name r, (name, Val.dict r) ∈ rs → ∀ ps, (Key.str "Type", Val.str "AWS::Logs::SubscriptionFilter") ∈ r → (Key.str "Properties", Val.dict ps) ∈ r →
        (∀ v, (Key.str "LogGroupName", v) ∈ ps → FloatsAreNumbers v) →
        ∀ kv ∈ rs, (filterName (spaced ((dlookup (Key.str "LogGroupName") ps).getD .none)) kv).isSome = true ↔
          FilterOf kv (jsonOf ((dlookup (Key.str "LogGroupName") ps).getD .none)) := by
      intro name r _ ps _ _ hfl kv hkv
      obtain ⟨k, v⟩ := kv
      constructor
      · intro h
        obtain ⟨r', ps', rfl, b1, b2, b3, -⟩ := filterName_some.1 (Option.isSome_iff_exists.1 h).choose_spec
        have hr' := at_wf (.key hkv .here) hwr
        have hr2 := hr'
        rw [Val.WF] at hr2
        obtain ⟨ps'', c1, c2⟩ := hplain k r' hkv (dlookup_mem b1)
        have := dlookup_of_mem hr2.1 c1
        rw [b2] at this
        cases this
        rw [filterOf_iff hr' (dlookup_mem b1) c1]
        exact ((spaced_iff (hfloat _ c2) (hfloat _ hfl)).1 b3).symm
      · intro h
        obtain ⟨r', ps', e, b1, b2, b3⟩ := id h
        dsimp only at e
        subst e
        have hr' := at_wf (.key hkv .here) hwr
        have hr2 := hr'
        rw [Val.WF] at hr2
        obtain ⟨ps'', c1, c2⟩ := hplain k r' hkv b1
        rw [filterOf_iff hr' b1 c1] at h
        rw [Option.isSome_iff_exists]
        exact ⟨k, filterName_some.2 ⟨r', ps'', rfl, dlookup_of_mem hr2.1 b1, dlookup_of_mem hr2.1 c1, ((spaced_iff (hfloat _ c2) (hfloat _ hfl)).2 h.symm), rfl⟩⟩
    simp only [hlist, filterMap_getElem?]
    constructor
    · rintro ⟨g, name, ⟨a, ⟨k, v⟩, b, rfl, h5, h6⟩, rfl⟩
      obtain ⟨r, ps, rfl, b1, b2, rfl, rfl⟩ := filterName_some.1 h5
      have hkv : (name, Val.dict r) ∈ a ++ (name, .dict r) :: b := by simp
      have hr' := at_wf (.key hkv .here) hwr
      have hr2 := hr'
      rw [Val.WF] at hr2
      obtain ⟨ps', c1, c2⟩ := hplain name r hkv (dlookup_mem b1)
      have := dlookup_of_mem hr2.1 c1
      rw [b2] at this
      cases this
      have hiff := hone name r hkv ps (dlookup_mem b1) c1 c2
      refine ⟨name, ⟨_, a, .dict r, b, jsonOf ((dlookup (Key.str "LogGroupName") ps).getD .none),
        a.filter (fun kv => (filterName (spaced ((dlookup (Key.str "LogGroupName") ps).getD .none)) kv).isSome), .key hrs .here, rfl, ?_, List.filter_sublist, ?_, ?_⟩, rfl⟩
      · exact (filterOf_iff hr' (dlookup_mem b1) c1 _).2 rfl
      · rw [← h6, List.length_filterMap_eq_countP, List.countP_eq_length_filter]
      · intro kv hkv'
        rw [← hiff kv (List.mem_append_left _ hkv'), List.mem_filter]
        exact ⟨fun h => ⟨hkv', h⟩, fun h => h.2⟩
    · rintro ⟨name, ⟨res, a, v, b, group, c, h4, rfl, h5, h6, h7, h8⟩, rfl⟩
      rw [at_dict_one] at h4
      have := dlookup_of_mem hwt.1 h4
      rw [dlookup_of_mem hwt.1 hrs] at this
      cases this
      obtain ⟨r, ps', e, b1, -⟩ := id h5
      dsimp only at e
      subst e
      have hkv : (name, Val.dict r) ∈ a ++ (name, .dict r) :: b := by simp
      have hr' := at_wf (.key hkv .here) hwr
      have hr2 := hr'
      rw [Val.WF] at hr2
      obtain ⟨ps, c1, c2⟩ := hplain name r hkv b1
      have hiff := hone name r hkv ps b1 c1 c2
      rw [filterOf_iff hr' b1 c1] at h5
      subst h5
      refine ⟨_, name, ⟨a, (name, .dict r), b, rfl, filterName_some.2 ⟨r, ps, rfl, dlookup_of_mem hr2.1 b1, dlookup_of_mem hr2.1 c1, rfl, rfl⟩, ?_⟩, rfl⟩
      rw [List.length_filterMap_eq_countP, List.countP_eq_length_filter, ← h7]
      have hna : a.Nodup := by
        have : (a ++ (name, Val.dict r) :: b).Nodup := List.Nodup.of_map _ hnd
        exact (List.nodup_append.1 this).1
      apply List.Perm.length_eq
      rw [List.perm_ext_iff_of_nodup (List.filter_sublist.nodup hna) (h6.nodup hna)]
      intro kv
      rw [List.mem_filter]
      constructor
      · rintro ⟨g1, g2⟩
        exact (h8 kv g1).1 ((hiff kv (List.mem_append_left _ g1)).1 g2)
      · intro g1
        have g2 := h6.subset g1
        exact ⟨g2, (hiff kv (List.mem_append_left _ g2)).2 ((h8 kv g2).2 g1)⟩
  · have hnil : resourcesOfType ["AWS::Logs::SubscriptionFilter"] t = [] := by
      rw [List.eq_nil_iff_forall_not_mem]
      rintro ⟨name, r⟩ hm
      obtain ⟨top, rs, ty, rfl, h3, -⟩ := (resourcesOfType_iff (List.cons_ne_nil _ _) _ _).1 hm
      exact hres ⟨top, rs, rfl, dlookup_mem h3⟩
    rw [hnil]
    simp only [List.filterMap_nil]
    constructor
    · rintro ⟨g, name, h, -⟩
      simp at h
    · rintro ⟨name, ⟨res, a, v, b, group, c, h4, -⟩, -⟩
      obtain ⟨top, rfl, h5⟩ : ∃ top, t = .dict top ∧ (Key.str "Resources", Val.dict res) ∈ top := by
        cases h4 with
        | key h h' =>
          cases h'
          exact ⟨_, rfl, h⟩
      exact absurd ⟨top, res, rfl, h5⟩ hres

/-- three filters of one group of which only one can exist at a time -/
def exFilters : Val :=
  .dict [(.str "Resources", .dict (["A", "B", "C"].map (fun n => (.str n, .dict [(.str "Type", .str "AWS::Logs::SubscriptionFilter"), (.str "Condition", .str n),
    (.str "Properties", .dict [(.str "LogGroupName", .str "g")])]))))]

example : filtersRule exFilters = .ok [[.str "Resources", .str "C"]] := by decide +kernel

example : FiltersPlain exFilters := by
  intro name r hm
  have : ∃ n, n ∈ ["A", "B", "C"] ∧ name = .str n ∧ r = [(.str "Type", .str "AWS::Logs::SubscriptionFilter"), (.str "Condition", .str n),
      (.str "Properties", .dict [(.str "LogGroupName", .str "g")])] := by
    have e : resourcesOfType ["AWS::Logs::SubscriptionFilter"] exFilters = ["A", "B", "C"].map (fun n => (Key.str n, [(Key.str "Type", Val.str "AWS::Logs::SubscriptionFilter"),
      (.str "Condition", .str n), (.str "Properties", .dict [(.str "LogGroupName", .str "g")])])) := by rfl
    rw [e, List.mem_map] at hm
    obtain ⟨n, h1, h2⟩ := hm
    cases h2
    exact ⟨n, h1, rfl, rfl⟩
  obtain ⟨n, -, -, rfl⟩ := this
  refine ⟨[(.str "LogGroupName", .str "g")], by simp, ?_⟩
  intro v hv p q h
  simp at hv
  subst hv
  cases h

/-- C115, as one would want it: a finding stands for three filters that have the same condition, or none. -/
def C115_filters_statement : Prop := ∀ t l name, t.WF → filtersRule t = .ok l → [.str "Resources", name] ∈ l →
  ∃ res a v b group kv, At t [.str "Resources"] (.dict res) ∧ res = a ++ (name, v) :: b ∧ kv ∈ a ∧ FilterOf kv group ∧
    ∀ c, At v [.str "Condition"] c → At kv.2 [.str "Condition"] c ∨ ∀ c', ¬ At kv.2 [.str "Condition"] c'

/-- C115: the conditions of filters are not looked at. -/
theorem C115_filters_violated : ¬ C115_filters_statement := by
  intro h
  obtain ⟨res, a, v, b, group, kv, h1, h2, h3, -, h5⟩ := h exFilters [[.str "Resources", .str "C"]] (.str "C")
    (by simp [exFilters, Val.WF, Val.WFDict]) (by decide +kernel) (List.mem_singleton.2 rfl)
  unfold exFilters at h1
  rw [at_dict_one] at h1
  simp at h1
  subst h1
  have hC : v = .dict [(.str "Type", .str "AWS::Logs::SubscriptionFilter"), (.str "Condition", .str "C"), (.str "Properties", .dict [(.str "LogGroupName", .str "g")])] := by
    have : (Key.str "C", v) ∈ a ++ (.str "C", v) :: b := by simp
    rw [← h2] at this
    simpa using this
  have hkv : kv.1 ≠ .str "C" := by
    intro e
    have hnd : ((a ++ (Key.str "C", v) :: b).map Prod.fst).Nodup := by
      rw [← h2]
      decide
    rw [List.map_append, List.nodup_append] at hnd
    exact hnd.2.2 kv.1 (List.mem_map.2 ⟨kv, h3, rfl⟩) kv.1 (by rw [e]; simp) rfl
  have hm : kv ∈ a ++ (Key.str "C", v) :: b := List.mem_append_left _ h3
  rw [← h2] at hm
  simp only [List.mem_cons, List.not_mem_nil, or_false] at hm
  have := h5 (.str "C") (by subst hC; exact .key (by simp) .here)
  rcases hm with rfl | rfl | rfl
  · rcases this with h | h
    · rw [at_dict_one] at h; simp at h
    · exact h (.str "A") (.key (by simp) .here)
  · rcases this with h | h
    · rw [at_dict_one] at h; simp at h
    · exact h (.str "B") (.key (by simp) .here)
  · exact hkv rfl

/-- C115: a filter without properties ends the rule with an error. -/
theorem C115_filter_raises {t : Val} {name : Key} {r : List (Key × Val)} (hm : (name, r) ∈ resourcesOfType ["AWS::Logs::SubscriptionFilter"] t)
    (hp : dlookup (Key.str "Properties") r = none) : ∃ e, filtersRule t = .error e := by
  have : ∀ (rs : List (Key × List (Key × Val))) gs, (name, r) ∈ rs → ∃ e, logGroups rs gs = .error e := by
    intro rs
    induction rs with
    | nil => intro gs h; cases h
    | cons a rs ih =>
      intro gs h
      obtain ⟨n', r'⟩ := a
      rw [logGroups]
      split
      · exact ⟨_, rfl⟩
      · rename_i v hv
        rcases List.mem_cons.1 h with h | h
        · cases h
          rw [hp] at hv
          cases hv
        · exact ih _ h
  obtain ⟨e, he⟩ := this _ [] hm
  exact ⟨e, by unfold filtersRule; rw [he]⟩

/-! ### the memory of functions -/

/-- C115: W2510 finds exactly the parameters for the memory that have neither both bounds nor allowed values. -/
theorem C115_memory (n : Nat) {top params : List (Key × Val)} (hw : (Val.dict top).WF) (hp : (Key.str "Parameters", Val.dict params) ∈ top)
    (hdict : ∀ s v, (Key.str s, v) ∈ params → ∃ ps, v = .dict ps) {kvs : List (Key × Val)} (hd : (kvs.map Prod.fst).Nodup)
    (hnull : ∀ v, (Key.str "MemorySize", v) ∈ kvs → v ≠ .none ∧ ∀ q, ¬ Leaf v q .none)
    (hv : ∀ v q x, (Key.str "MemorySize", v) ∈ kvs → PropValue v q (.dict [(.str "Ref", x)]) → ∃ s, x = .str s) (path : Path) :
    ∃ l, memoryRule (.dict top) (n + 2) (.dict kvs) path = .ok l ∧
      ∀ m, m ∈ l ↔ ∃ v q s ps, (Key.str "MemorySize", v) ∈ kvs ∧ PropValue v q (.dict [(.str "Ref", .str s)]) ∧ (Key.str s, Val.dict ps) ∈ params ∧ Unbounded ps ∧
        m = [.str "Parameters", .str s] := by
  have hwp := at_wf (.key hp .here) hw
  have hnd := hwp
  rw [Val.WF] at hnd
  have hnd := hnd.1
  have hwt := hw
  rw [Val.WF] at hwt
  unfold memoryRule
  simp only [Val.getD, dlookup_of_mem hwt.1 hp, Option.getD_some]
  obtain ⟨l, h1, h2⟩ := checkValue_given (h := { ref := some (memoryRef params) }) (path := path)
    (P := fun u _ m => ∃ s ps, u = .dict [(.str "Ref", .str s)] ∧ (Key.str s, Val.dict ps) ∈ params ∧ Unbounded ps ∧ m = [.str "Parameters", .str s]) hd hnull n (by
      intro v q u a b p
      obtain ⟨l, k1, k2⟩ := checkOne_refOnly (g := memoryRef params) (u := u) (p := p)
        (Q := fun m => ∃ s ps, u = .dict [(.str "Ref", .str s)] ∧ (Key.str s, Val.dict ps) ∈ params ∧ Unbounded ps ∧ m = [.str "Parameters", .str s]) (by
          rintro x rfl
          obtain ⟨s, rfl⟩ := hv v q x a b
          cases hl : dlookup (Key.str s) params with
          | none =>
            refine ⟨[], by simp [memoryRef, toKey, hl], fun m => ?_⟩
            simp only [List.not_mem_nil, false_iff]
            rintro ⟨s', ps, e, c, -⟩
            cases e
            rw [dlookup_of_mem hnd c] at hl
            cases hl
          | some w =>
            obtain ⟨ps, rfl⟩ := hdict s w (dlookup_mem hl)
            have hps := at_wf (.key (dlookup_mem hl) .here) hwp
            rw [Val.WF] at hps
            have hun : ((!((dlookup (Key.str "MinValue") ps).getD .none).truthy || !((dlookup (Key.str "MaxValue") ps).getD .none).truthy) &&
                !((dlookup (Key.str "AllowedValues") ps).getD .none).truthy) = true ↔ Unbounded ps := by
              unfold Unbounded
              rw [← given_iff hps.1, ← given_iff hps.1, ← given_iff hps.1]
              cases ((dlookup (Key.str "MinValue") ps).getD .none).truthy <;> cases ((dlookup (Key.str "MaxValue") ps).getD .none).truthy <;>
                cases ((dlookup (Key.str "AllowedValues") ps).getD .none).truthy <;> simp
            by_cases hu : Unbounded ps
            · refine ⟨[[.str "Parameters", .str s]], ?_, fun m => ?_⟩
              · simp only [memoryRef, toKey, Option.bind_some, hl, Val.getD, hun.2 hu, if_true]
              · rw [List.mem_singleton]
                constructor
                · rintro rfl
                  exact ⟨s, ps, rfl, dlookup_mem hl, hu, rfl⟩
                · rintro ⟨s', ps', e, -, -, rfl⟩
                  cases e
                  rfl
            · refine ⟨[], ?_, fun m => ?_⟩
              · simp only [memoryRef, toKey, Option.bind_some, hl, Val.getD]
                rw [if_neg (fun h => hu (hun.1 h))]
              · simp only [List.not_mem_nil, false_iff]
                rintro ⟨s', ps', e, c, c', -⟩
                cases e
                rw [dlookup_of_mem hnd c] at hl
                cases hl
                exact hu c')
      refine ⟨l, k1, fun m => ?_⟩
      rw [k2]
      constructor
      · exact fun h => h.2
      · rintro ⟨s, ps, rfl, h⟩
        exact ⟨⟨_, rfl⟩, s, ps, rfl, h⟩)
  refine ⟨l, h1, fun m => ?_⟩
  rw [h2]
  constructor
  · rintro ⟨v, q, u, a, b, s, ps, rfl, c, d, e⟩
    exact ⟨v, q, s, ps, a, b, c, d, e⟩
  · rintro ⟨v, q, s, ps, a, b, c, d, e⟩
    exact ⟨v, q, _, a, b, s, ps, rfl, c, d, e⟩

example : memoryRule (.dict [(.str "Parameters", .dict [(.str "M", .dict [(.str "MinValue", .int 128)])])]) 9 (.dict [(.str "MemorySize", .dict [(.str "Ref", .str "M")])]) [] =
    .ok [[.str "Parameters", .str "M"]] := by decide +kernel

/-- C115: resources that are no object are passed over when they count as false, and otherwise end the rule with an error. -/
theorem C115_no_resources {t v : Val} (h : t.getD "Resources" (.dict []) = .ok v) (hv : ∀ kvs, v ≠ .dict kvs) :
    (v.truthy = false → rawResources t = .ok []) ∧ (v.truthy = true → ∃ e, rawResources t = .error e) := by
  unfold rawResources
  rw [h]
  cases v with
  | dict kvs => exact absurd rfl (hv kvs)
  | _ => exact ⟨fun hf => by simp only [hf]; rfl, fun ht => ⟨_, by simp only [ht, if_true]; rfl⟩⟩

example : rawResources (.dict [(.str "Resources", .none)]) = .ok [] := by decide

end CfnLint
