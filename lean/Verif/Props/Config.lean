import Verif.Lemmas.Split
/-
Properties C15, C17-C20: configuration precedence, template Metadata, merging of configuration files,
rule option strings, template selection.
-/
namespace CfnLint
open Spec

/-! ## C15 -/

/-- C15: each option has the documented effective value, whatever the three sources contain. -/
theorem C15_precedence (s : Sources) (name : String) (isT isF : Bool) :
    getArgumentValue s name isT isF = effective s.cli s.template s.file (name, isT, isF) := by
  have hf : Val.truthy .none = false := rfl
  unfold getArgumentValue effective firstTruthy getOpt
  simp only
  cases hc : (s.cli name).truthy with
  | true => simp [hc]
  | false =>
    cases isT <;> cases isF <;> cases ht : dlookup name s.template <;>
      cases hfl : dlookup name s.file <;> simp [hc, hf, List.find?]
    all_goals first
      | (rename_i x y; cases hx : x.truthy <;> cases hy : y.truthy <;> simp_all)
      | (rename_i a; cases ha : a.truthy <;> simp_all)

/-- C15 for the individual options of the program. -/
theorem C15_options (s : Sources) :
    s.ignoreChecks = effective s.cli s.template s.file ("ignore_checks", true, true) ∧
    s.mandatoryChecks = effective s.cli s.template s.file ("mandatory_checks", false, true) ∧
    s.includeExperimental = effective s.cli s.template s.file ("include_experimental", true, true) ∧
    s.ignoreBadTemplate = effective s.cli s.template s.file ("ignore_bad_template", true, true) ∧
    s.configureRules = effective s.cli s.template s.file ("configure_rules", true, true) ∧
    s.appendRules = effective s.cli s.template s.file ("append_rules", false, true) ∧
    s.overrideSpec = effective s.cli s.template s.file ("override_spec", false, true) ∧
    s.debug = effective s.cli s.template s.file ("debug", false, false) ∧
    s.format = effective s.cli s.template s.file ("format", false, true) :=
  ⟨C15_precedence .., C15_precedence .., C15_precedence .., C15_precedence .., C15_precedence ..,
   C15_precedence .., C15_precedence .., C15_precedence .., C15_precedence ..⟩

/-- C15, include checks: the effective list preceded by the two defaults. -/
theorem C15_include_checks (s : Sources) (l : List Val) :
    s.includeChecks = .ok l ↔ ∃ l', l = .str "W" :: .str "E" :: l' ∧
      effective s.cli s.template s.file ("include_checks", true, true) = .list l' := by
  unfold Sources.includeChecks
  rw [C15_precedence]
  cases effective s.cli s.template s.file ("include_checks", true, true) <;>
    simp [Val.asList, Except.map, eq_comm]

/-- C15, regions: a non-empty effective list of regions is used, as it is or, if it contains
`ALL_REGIONS`, replaced by all known regions. -/
theorem C15_regions (all : List String) (s : Sources) (l : List Val) (hl : l ≠ [])
    (h : effective s.cli s.template s.file ("regions", true, true) = .list l) :
    (.str "ALL_REGIONS" ∈ l → s.regions all = .ok (.list (all.map .str))) ∧
    (.str "ALL_REGIONS" ∉ l → s.regions all = .ok (.list l)) := by
  unfold Sources.regions
  rw [C15_precedence, h]
  have : (Val.list l).truthy = true := by
    cases l with
    | nil => exact absurd rfl hl
    | cons => rfl
  simp only [this, Bool.not_true, Bool.false_eq_true, if_false, Sources.regionsHasAll]
  constructor
  · intro hm
    have : l.contains (Val.str "ALL_REGIONS") = true := by simpa using hm
    rw [this]
  · intro hm
    have : l.contains (Val.str "ALL_REGIONS") = false := by simpa using hm
    rw [this]

/-- C15, regions: without a truthy value anywhere the region is `us-east-1`. -/
theorem C15_regions_default (all : List String) (s : Sources)
    (h : (effective s.cli s.template s.file ("regions", true, true)).truthy = false) :
    s.regions all = .ok (.list [.str "us-east-1"]) := by
  unfold Sources.regions
  rw [C15_precedence]
  simp only [h]
  rfl

example : effective (fun _ => .none) [("regions", .list [.str "ALL_REGIONS"])]
    [("regions", .list [.str "eu-west-1"])] ("regions", true, true) = .list [.str "ALL_REGIONS"] := by
  decide

-- the command line wins, then the template, then the file; a template value for a file-only option is
-- ignored
example : Sources.ignoreChecks ⟨fun _ => .list [], [("ignore_checks", .list [.str "E1"])],
    [("ignore_checks", .list [.str "E2"])]⟩ = .list [.str "E1"] := by decide
example : Sources.mandatoryChecks ⟨fun _ => .list [], [("mandatory_checks", .list [.str "E1"])],
    [("mandatory_checks", .list [.str "E2"])]⟩ = .list [.str "E2"] := by decide

/-! ## C17 -/

/-- C17: the configuration read from a template contains an option with a value exactly when the
template's `Metadata / cfn-lint / config` has it with that value, the option is one of the seven that
templates may set and the value has the right type. -/
theorem C17_template_whitelist (top : List (Key × Val)) (hw : (Val.dict top).WF)
    (args : List (String × Val)) (h : setTemplateArgs (.dict top) = .ok args) (n : String) (v : Val) :
    dlookup n args = some v ↔
      getPath (.dict top) [.str "Metadata", .str "cfn-lint", .str "config", .str n] = some v ∧
      settable n v = true := by
  simp only [setTemplateArgs, Val.getD] at h
  simp only [getPath]
  simp only [Val.WF] at hw
  cases h1 : dlookup (Key.str "Metadata") top with
  | none =>
    rw [h1] at h
    simp [dlookup, templateArgLoop] at h; subst h; simp [dlookup]
  | some md =>
    rw [h1] at h
    have w1 := wfDict_mem hw.2 _ (dlookup_mem h1)
    cases md with
    | dict m1 =>
      simp only [Option.getD_some] at h ⊢
      simp only [Val.WF] at w1
      cases h2 : dlookup (Key.str "cfn-lint") m1 with
      | none =>
        rw [h2] at h
        simp [dlookup, templateArgLoop] at h; subst h; simp [getPath, h2, dlookup]
      | some cl =>
        rw [h2] at h
        have w2 := wfDict_mem w1.2 _ (dlookup_mem h2)
        cases cl with
        | dict m2 =>
          simp only [Option.getD_some] at h ⊢
          simp only [Val.WF] at w2
          cases h3 : dlookup (Key.str "config") m2 with
          | none =>
            rw [h3] at h
            simp [templateArgLoop] at h; subst h; simp [getPath, h2, h3, dlookup]
          | some cf =>
            rw [h3] at h
            have w3 := wfDict_mem w2.2 _ (dlookup_mem h3)
            cases cf with
            | dict m3 =>
              simp only [Option.getD_some, Except.ok.injEq] at h
              simp only [Val.WF] at w3
              subst h
              rw [templateArgLoop_lookup n m3 [] w3.1]
              simp only [getPath, h2, h3]
              cases h4 : dlookup (Key.str n) m3 with
              | none => simp [dlookup]
              | some x =>
                simp only [dlookup, Option.some.injEq]
                split
                · next hs =>
                  simp only [Option.some.injEq]
                  constructor
                  · rintro rfl; exact ⟨rfl, hs⟩
                  · exact fun h => h.1
                · next hs =>
                  constructor
                  · intro h; cases h
                  · rintro ⟨rfl, h⟩; exact absurd h hs
            | _ => simp at h; subst h; simp [getPath, h2, h3, dlookup]
        | _ => simp [attrErr] at h
    | _ => simp [attrErr] at h

/-- C17: in particular a template cannot set the mandatory checks, the output format, the configuration
file, experimental rules or the list of templates. -/
theorem C17_not_settable (top : List (Key × Val)) (hw : (Val.dict top).WF)
    (args : List (String × Val)) (h : setTemplateArgs (.dict top) = .ok args) :
    ∀ n ∈ ["mandatory_checks", "format", "config_file", "include_experimental", "templates",
      "ignore_templates", "output_file"], dlookup n args = none := by
  intro n hn
  cases hd : dlookup n args with
  | none => rfl
  | some v =>
    have := (C17_template_whitelist top hw args h n v).1 hd
    simp only [List.mem_cons, List.not_mem_nil, or_false] at hn
    rcases hn with rfl | rfl | rfl | rfl | rfl | rfl | rfl <;>
      simp [settable, templateSettable] at this

-- wrong types and unknown options are dropped
example : setTemplateArgs (.dict [(.str "Metadata", .dict [(.str "cfn-lint", .dict [(.str "config",
    .dict [(.str "ignore_checks", .list [.str "E1"]), (.str "regions", .str "us-east-1"),
      (.str "mandatory_checks", .list []), (.str "ignore_bad_template", .bool true),
      (.str "include_checks", .dict [])])])])]) =
    .ok [("ignore_checks", .list [.str "E1"]), ("ignore_bad_template", .bool true)] := by decide

/-! ## C18 -/

/-- C18: every non-map value in the project configuration is in the merged configuration, at the same
path. -/
theorem C18_project_wins (u p : List (Key × Val)) (path : List Key) (v : Val)
    (hv : v.isDict = false) (h : getPath (.dict p) path = some v) :
    getPath (.dict (mergeConfig u p)) path = some v := by
  rw [← mergeVal_dict]; exact merge_project path _ _ v hv h

/-- C18: a user value at a path that the project configuration does not touch is kept. -/
theorem C18_user_kept (u p : List (Key × Val)) (path : List Key) (v : Val)
    (h : getPath (.dict u) path = some v) (hp : Untouched (.dict p) path) :
    getPath (.dict (mergeConfig u p)) path = some v := by
  rw [← mergeVal_dict]; exact merge_user path _ _ v h hp

/-- C18: no path appears that neither configuration has. -/
theorem C18_nothing_else (u p : List (Key × Val)) (path : List Key) (v : Val)
    (h : getPath (.dict (mergeConfig u p)) path = some v) :
    (getPath (.dict u) path).isSome = true ∨ (getPath (.dict p) path).isSome = true := by
  rw [← mergeVal_dict] at h; exact merge_only path _ _ v h

/-- C18: merging the project configuration again changes nothing. -/
theorem C18_idempotent (u p : List (Key × Val)) (hu : (Val.dict u).WF) (hp : (Val.dict p).WF) :
    mergeConfig (mergeConfig u p) p = mergeConfig u p := by
  have := mergeVal_idem (.dict u) (.dict p) hu hp
  rw [mergeVal_dict, mergeVal_dict] at this
  injection this

-- nested maps are merged, lists are replaced
example : mergeConfig
    [(.str "configure_rules", .dict [(.str "E3012", .dict [(.str "strict", .bool true), (.str "x", .int 1)])]),
     (.str "ignore_checks", .list [.str "E1"])]
    [(.str "ignore_checks", .list [.str "E2"]),
     (.str "configure_rules", .dict [(.str "E3012", .dict [(.str "strict", .bool false)])]),
     (.str "regions", .list [])] =
    [(.str "configure_rules", .dict [(.str "E3012", .dict [(.str "strict", .bool false), (.str "x", .int 1)])]),
     (.str "ignore_checks", .list [.str "E2"]), (.str "regions", .list [])] := by decide

/-! ## C19 -/

/-- C19: separator-free items joined by commas parse to exactly the map they denote. -/
theorem C19_parse_plain (i : String × String × String) (rest : List (String × String × String))
    (h : ∀ j ∈ i :: rest, PlainText j.1 ∧ PlainText j.2.1 ∧ PlainText j.2.2) :
    ∃ m, parseRuleConfiguration (String.ofList (joinItems (i :: rest))) = .ok m ∧
      (∀ r k, (dlookup r m).bind (dlookup k) = itemValue r k (i :: rest)) ∧
      (∀ r, (dlookup r m).isSome = true ↔ ∃ j ∈ i :: rest, j.1 = r) := by
  obtain ⟨m, h1, h2, h3⟩ := parseRuleLoop_items (i :: rest) [] h
  refine ⟨m, ?_, ?_, ?_⟩
  · unfold parseRuleConfiguration
    rw [String.toList_ofList, splitOn_joinItems i rest h]
    exact h1
  · intro r k
    have := h2 r k
    unfold cfgValue at this
    rw [this]; simp [dlookup]
  · intro r; rw [h3]; simp [dlookup]

/-- C19: an item without a colon, or without an equals sign after the first colon, is rejected. -/
theorem C19_malformed_rejected (a : List Char)
    (h : ':' ∉ a ∨ ∃ x y, a = x ++ ':' :: y ∧ ':' ∉ x ∧ ':' ∉ y ∧ '=' ∉ y) :
    ∃ e, parseItem a = .error e := by
  unfold parseItem
  rcases h with h | ⟨x, y, rfl, h1, h2, h3⟩
  · rw [splitOn_plain h]
    exact ⟨.indexError "list index out of range", rfl⟩
  · rw [splitOn_append _ h1, splitOn_plain h2]
    simp only [idx, List.getElem?_cons_zero, List.getElem?_cons_succ, bind, Except.bind,
      splitOn_plain h3]
    exact ⟨_, rfl⟩

/-- C19: one rejected item makes the whole command line be rejected (the program prints its help). -/
theorem C19_rejected_exits (vs ws : List String) (v : String)
    (items : List (String × List (String × String))) (e : PyErr)
    (h : parseRuleConfiguration v = .error e) :
    ruleConfigurationAction (vs ++ v :: ws) items = none := by
  induction vs generalizing items with
  | nil => simp [ruleConfigurationAction, h]
  | cons x vs ih =>
    simp only [List.cons_append, ruleConfigurationAction]
    cases parseRuleConfiguration x with
    | error e => rfl
    | ok new => exact ih _

/-- nested maps with distinct keys on both levels -/
def NestedKeys (m : List (String × List (String × String))) : Prop :=
  (m.map Prod.fst).Nodup ∧ ∀ kv ∈ m, (kv.2.map Prod.fst).Nodup

theorem dset_mem_cfg {β : Type} {k : String} {v : β} : ∀ {d : List (String × β)} {kv : String × β},
    kv ∈ dset k v d → kv = (k, v) ∨ kv ∈ d
  | [], kv, h => by simpa [dset] using h
  | (k', v') :: d, kv, h => by
    rw [dset] at h
    split at h
    · rename_i hk
      rcases List.mem_cons.1 h with rfl | h
      · left; rw [hk]
      · exact .inr (List.mem_cons_of_mem _ h)
    · rcases List.mem_cons.1 h with rfl | h
      · exact .inr List.mem_cons_self
      · rcases dset_mem_cfg h with h | h
        · exact .inl h
        · exact .inr (List.mem_cons_of_mem _ h)

theorem parseRuleLoop_nested : ∀ (cs : List (List Char)) (acc m : List (String × List (String × String))),
    NestedKeys acc → parseRuleLoop cs acc = .ok m → NestedKeys m
  | [], acc, m, h, he => by
    injection he with he
    subst he
    exact h
  | c :: cs, acc, m, h, he => by
    rw [parseRuleLoop] at he
    split at he
    · cases he
    · rename_i rid k v _
      refine parseRuleLoop_nested cs _ m ⟨dset_nodup _ _ h.1, ?_⟩ he
      intro kv hkv
      rcases dset_mem_cfg hkv with rfl | hkv
      · refine dset_nodup _ _ ?_
        cases hl : dlookup rid acc with
        | none => simp
        | some old => exact h.2 (rid, old) (dlookup_mem hl)
      · exact h.2 kv hkv

theorem foldl_dset_lookup (k : String) : ∀ (vs old : List (String × String)), (vs.map Prod.fst).Nodup →
    dlookup k (vs.foldl (fun o x => dset x.1 x.2 o) old) = (dlookup k vs).or (dlookup k old)
  | [], old, _ => by simp [dlookup]
  | (a, b) :: vs, old, h => by
    simp only [List.map_cons, List.nodup_cons] at h
    rw [List.foldl_cons, foldl_dset_lookup k vs _ h.2, dlookup_dset, dlookup]
    by_cases ha : a = k
    · subst ha
      rw [dlookup_none_iff.2 h.1]
      simp
    · simp [ha]

theorem mergeRuleItems_value (r k : String) : ∀ (new items : List (String × List (String × String))),
    NestedKeys new → cfgValue r k (mergeRuleItems new items) = (cfgValue r k new).or (cfgValue r k items)
  | [], items, _ => by simp [mergeRuleItems, cfgValue, dlookup]
  | (a, vs) :: new, items, h => by
    have h1 := h.1
    simp only [List.map_cons, List.nodup_cons] at h1
    have hrec : NestedKeys new := ⟨h1.2, fun kv hkv => h.2 kv (List.mem_cons_of_mem _ hkv)⟩
    have hvs := h.2 (a, vs) List.mem_cons_self
    have hnone : dlookup a new = none := dlookup_none_iff.2 h1.1
    rw [mergeRuleItems]
    split
    · rename_i old hold
      rw [mergeRuleItems_value r k new _ hrec]
      unfold cfgValue
      rw [dlookup_dset, dlookup]
      by_cases ha : a = r
      · subst ha
        simp [hnone, hold, foldl_dset_lookup k vs old hvs]
      · simp [ha]
    · rename_i hold
      rw [mergeRuleItems_value r k new _ hrec]
      unfold cfgValue
      rw [dlookup_dset, dlookup]
      by_cases ha : a = r
      · subst ha
        simp [hnone, hold]
      · simp [ha]

theorem itemValue_append (r k : String) : ∀ (a b : List (String × String × String)),
    itemValue r k (a ++ b) = (itemValue r k b).or (itemValue r k a)
  | [], b => by simp [itemValue]
  | i :: a, b => by
    rw [List.cons_append, itemValue, itemValue_append r k a b, itemValue]
    cases itemValue r k b <;> simp

/-- C19: several arguments of `-x` (each a non-empty list of separator-free items) accumulate: the option of a
rule has the value given last, wherever it was given; nothing given earlier is lost. -/
theorem C19_arguments_accumulate (r k : String) : ∀ (args : List (List (String × String × String)))
    (items : List (String × List (String × String))),
    (∀ a ∈ args, a ≠ [] ∧ ∀ j ∈ a, PlainText j.1 ∧ PlainText j.2.1 ∧ PlainText j.2.2) →
    ∃ m, ruleConfigurationAction (args.map (fun a => String.ofList (joinItems a))) items = some m ∧
      (dlookup r m).bind (dlookup k) = (itemValue r k args.flatten).or ((dlookup r items).bind (dlookup k))
  | [], items, _ => ⟨items, rfl, by simp [itemValue]⟩
  | a :: args, items, h => by
    obtain ⟨hne, hp⟩ := h a List.mem_cons_self
    cases a with
    | nil => exact absurd rfl hne
    | cons i rest =>
      obtain ⟨m, h1, h2, _⟩ := C19_parse_plain i rest hp
      have hn : NestedKeys m := parseRuleLoop_nested _ [] m ⟨by simp, by simp⟩ h1
      obtain ⟨m', h3, h4⟩ := C19_arguments_accumulate r k args (mergeRuleItems m items)
        (fun x hx => h x (List.mem_cons_of_mem _ hx))
      refine ⟨m', ?_, ?_⟩
      · simp only [List.map_cons, ruleConfigurationAction, h1]
        exact h3
      · rw [h4]
        have := mergeRuleItems_value r k m items hn
        unfold cfgValue at this
        rw [this, h2 r k, List.flatten_cons, itemValue_append]
        cases itemValue r k args.flatten <;> simp

/-- The full C19 claim about malformed items: an item is either rejected or read as written. -/
def C19_statement : Prop :=
  ∀ a : List Char, (∃ e, parseItem a = .error e) ∨
    ∃ r k v, parseItem a = .ok (r, k, v) ∧ a = (itemText (r, k, v)).toList

/-- C19 fails for values containing `=` or `:`: the rest of the value is silently dropped. -/
theorem C19_misread_violated : ¬ C19_statement := by
  intro h
  have e : parseItem "E3012:name=a=b".toList = .ok ("E3012", "name", "a") := by decide
  rcases h "E3012:name=a=b".toList with ⟨x, hx⟩ | ⟨r, k, v, h1, h2⟩
  · rw [e] at hx; cases hx
  · rw [e] at h1
    injection h1 with h1
    simp only [Prod.mk.injEq] at h1
    obtain ⟨rfl, rfl, rfl⟩ := h1
    revert h2; decide

example : PlainText "E3012" ∧ PlainText "strict" ∧ PlainText "false" := by
  refine ⟨?_, ?_, ?_⟩ <;> (unfold PlainText; decide)
example : parseRuleConfiguration "E3012:strict=false,E3012:limit=3,W1:a=b,E3012:strict=true" =
    .ok [("E3012", [("strict", "true"), ("limit", "3")]), ("W1", [("a", "b")])] := by decide

/-! ## C20 -/

/-- C20: the selected templates are sorted and are exactly the files the requested patterns stand for
that no ignore pattern stands for. -/
theorem C20_selection (glob : String → List String) (alt templates ignore : List String)
    (out : List String) (h : selectTemplates glob alt templates ignore = some out) :
    out.Pairwise (· ≤ ·) ∧
    ∀ f, f ∈ out ↔ (∃ p ∈ (if alt = [] then templates else alt), PatternMeans glob p f) ∧
      ¬ ∃ p ∈ ignore, PatternMeans glob p f := by
  unfold selectTemplates at h
  simp only at h
  have hif : (if (!alt.isEmpty) = true then alt else templates) = if alt = [] then templates else alt := by
    cases alt <;> simp
  rw [hif] at h
  generalize (if alt = [] then templates else alt) = pats at h ⊢
  split at h
  · cases h
  · injection h with h
    subst h
    constructor
    · have := List.pairwise_mergeSort strLe_trans strLe_total
        (expandTemplates glob (expandIgnore glob ignore) pats)
      exact this.imp (by intro a b h; simpa [strLe] using h)
    · intro f
      rw [List.mem_mergeSort, mem_expandTemplates, mem_expandIgnore]

/-- C20: nothing is selected only when no pattern was given. -/
theorem C20_none (glob : String → List String) (alt templates ignore : List String) :
    selectTemplates glob alt templates ignore = none ↔ alt = [] ∧ templates = [] := by
  unfold selectTemplates
  cases alt <;> cases templates <;> simp

/-- The full C20 claim also says that each template is linted once. -/
def C20_statement : Prop :=
  ∀ (glob : String → List String), (∀ p, (glob p).Nodup) → ∀ (alt templates ignore out : List String),
    selectTemplates glob alt templates ignore = some out → out.Nodup

/-- C20 fails for overlapping patterns: `a.yaml *.yaml` lints `a.yaml` twice. -/
theorem C20_once_violated : ¬ C20_statement := by
  intro h
  have := h (fun p => if p = "*.yaml" then ["a.yaml", "b.yaml"] else if p = "a.yaml" then ["a.yaml"] else [])
    (by intro p; split <;> (try split) <;> simp) [] ["a.yaml", "*.yaml"] [] _ rfl
  have e : ∃ l : List String, l.Perm ["a.yaml", "a.yaml", "b.yaml"] ∧ l.Nodup := by
    refine ⟨_, ?_, this⟩
    refine (List.mergeSort_perm _ _).trans ?_
    simp only [List.isEmpty_nil]
    exact List.Perm.of_eq (by decide)
  obtain ⟨l, hp, hn⟩ := e
  have := hp.nodup_iff.1 hn
  simp at this

/-- C20: when the patterns do not overlap each template is linted once. Missing for the full claim:
overlapping patterns. -/
theorem C20_once_partial (glob : String → List String) (alt templates ignore out : List String)
    (h : selectTemplates glob alt templates ignore = some out)
    (hg : ∀ p, (glob p).Nodup)
    (hdis : (if alt = [] then templates else alt).Pairwise
      (fun p q => ∀ f, ¬ (PatternMeans glob p f ∧ PatternMeans glob q f))) : out.Nodup := by
  unfold selectTemplates at h
  simp only at h
  have hif : (if (!alt.isEmpty) = true then alt else templates) = if alt = [] then templates else alt := by
    cases alt <;> simp
  rw [hif] at h
  generalize (if alt = [] then templates else alt) = pats at h hdis
  split at h
  · cases h
  · injection h with h
    subst h
    rw [(List.mergeSort_perm _ _).nodup_iff]
    generalize expandIgnore glob ignore = ign
    clear * - hg hdis
    induction pats with
    | nil => simp [expandTemplates]
    | cons p ps ih =>
      rw [List.pairwise_cons] at hdis
      simp only [expandTemplates]
      rw [List.nodup_append]
      refine ⟨?_, ih hdis.2, ?_⟩
      · split
        · split <;> simp
        · exact (hg p).filter _
      · intro a ha b hb hab
        subst hab
        rw [mem_expandTemplates] at hb
        obtain ⟨⟨q, hq, hqa⟩, hni⟩ := hb
        refine hdis.1 q hq a ⟨?_, hqa⟩
        have : a ∈ expandTemplates glob ign [p] := by simpa [expandTemplates] using ha
        rw [mem_expandTemplates] at this
        obtain ⟨⟨p', hp', h⟩, _⟩ := this
        simp only [List.mem_singleton] at hp'
        subst hp'
        exact h

-- an ignored file is left out, a pattern without matches stands for itself
example : ∀ out, selectTemplates
      (fun p => if p = "*.yaml" then ["b.yaml", "a.yaml", "c.yaml"] else []) []
      ["*.yaml", "missing.json"] ["b.yaml"] = some out →
    "a.yaml" ∈ out ∧ "b.yaml" ∉ out ∧ "missing.json" ∈ out := by
  intro out h
  have := (C20_selection _ _ _ _ _ h).2
  simp only [this, PatternMeans]
  simp

end CfnLint
