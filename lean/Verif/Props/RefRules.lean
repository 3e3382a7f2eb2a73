import Verif.Spec.RefRules
import Verif.Lemmas.Search
import Verif.Lemmas.Finds
import Verif.Props.Regex
import Verif.Props.Elb
/-
C116: references, joins, keys of mappings and sections.
-/
namespace CfnLint
open Spec

theorem mem_keyAt {key : String} {t globals : Val} {p : Path} {w : Val} : (p, w) ∈ searchDeepKeys key t globals ↔ KeyAt t globals key p w := by
  unfold searchDeepKeys KeyAt
  rw [List.mem_append, mem_searchVal, mem_searchVal]
  constructor
  · rintro (⟨q, rfl, h1, r, rfl⟩ | ⟨q, rfl, h1, r, rfl⟩)
    · exact ⟨⟨r, rfl⟩, .inl h1⟩
    · exact ⟨⟨r, rfl⟩, .inr h1⟩
  · rintro ⟨⟨q, rfl⟩, h | h⟩
    · exact .inl ⟨_, rfl, h, q, rfl⟩
    · exact .inr ⟨_, rfl, h, q, rfl⟩

/-- C116: E1020 finds exactly the keys `Ref` whose value is no text. -/
theorem C116_ref_partial (t globals : Val) (p : Path) : p ∈ refTextRule t globals ↔ ∃ w, KeyAt t globals "Ref" p w ∧ ∀ s, w ≠ .str s := by
  unfold refTextRule
  rw [List.mem_flatMap]
  constructor
  · rintro ⟨⟨q, w⟩, h1, h2⟩
    split at h2
    · cases h2
    · rename_i hne
      rw [List.mem_singleton] at h2
      subst h2
      exact ⟨w, mem_keyAt.1 h1, hne⟩
  · rintro ⟨w, h1, h2⟩
    refine ⟨(p, w), mem_keyAt.2 h1, ?_⟩
    split
    · rename_i s e
      exact absurd e (h2 s)
    · exact List.mem_singleton.2 rfl

/-- C116, as one would want it: only references are found, objects with the one key `Ref`. -/
def C116_ref_statement : Prop := ∀ t p, t.WF → p ∈ refTextRule t (.dict []) → ∃ q w, p = q ++ [.str "Ref"] ∧ At t q (.dict [(.str "Ref", w)])

/-- C116: a resource with the name `Ref` is taken for a reference. -/
theorem C116_ref_violated : ¬ C116_ref_statement := by
  intro h
  obtain ⟨q, w, e, hq⟩ := h (.dict [(.str "Resources", .dict [(.str "Ref", .dict [(.str "Type", .str "AWS::SNS::Topic")]), (.str "B", .int 0)])]) [.str "Resources", .str "Ref"]
    (by simp [Val.WF, Val.WFDict]) (by decide +kernel)
  have : q = [.str "Resources"] := by
    rcases q with _ | ⟨a, _ | ⟨b, q⟩⟩
    · simp at e
    · simp at e
      rw [e]
    · have := congrArg List.length e
      simp at this
  subst this
  rw [at_dict_one] at hq
  simp at hq

/-- C116: I1022 finds exactly the joins with an empty delimiter. -/
theorem C116_join {t globals : Val} (h : ∀ p, ¬ KeyAt t globals "Fn::Join" p (.list [])) :
    ∃ l, subNotJoinRule t globals = .ok l ∧ ∀ p, p ∈ l ↔ ∃ xs, KeyAt t globals "Fn::Join" p (.list (.str "" :: xs)) := by
  obtain ⟨l, h1, h2⟩ := collectM_spec (as := searchDeepKeys "Fn::Join" t globals) (f := emptyJoin) (P := fun pw p => p = pw.1 ∧ ∃ xs, pw.2 = .list (.str "" :: xs)) (by
    rintro ⟨p, w⟩ hm
    unfold emptyJoin
    split
    · rename_i e
      dsimp only at e
      subst e
      exact absurd (mem_keyAt.1 hm) (h p)
    · rename_i x xs e
      refine ⟨_, rfl, fun m => ?_⟩
      dsimp only at e
      subst e
      by_cases hx : x = .str ""
      · subst hx
        simp
      · rw [if_neg (by simpa using hx)]
        simp [hx]
    · rename_i h3 h4
      refine ⟨[], rfl, fun m => ?_⟩
      simp only [List.not_mem_nil, false_iff]
      rintro ⟨-, xs, e⟩
      exact h4 _ _ e)
  refine ⟨l, h1, fun p => ?_⟩
  rw [h2]
  constructor
  · rintro ⟨⟨p', w⟩, hm, rfl, xs, rfl⟩
    exact ⟨xs, mem_keyAt.1 hm⟩
  · rintro ⟨xs, hm⟩
    exact ⟨(p, _), mem_keyAt.2 hm, rfl, xs, rfl⟩

example : subNotJoinRule (.dict [(.str "A", .dict [(.str "Fn::Join", .list [.str "", .list []])])]) (.dict []) = .ok [[.str "A", .str "Fn::Join"]] := by decide +kernel

example : ∃ l, subNotJoinRule (.dict []) (.dict []) = .ok l ∧ ∀ p, p ∈ l ↔ ∃ xs, KeyAt (.dict []) (.dict []) "Fn::Join" p (.list (.str "" :: xs)) :=
  C116_join (by
    rintro p ⟨-, h | h⟩
    all_goals
      generalize hg : Val.list [] = w at h
      cases h with
      | here => cases hg
      | key h => cases h)

/-- C116: a join with an empty list ends the rule with an error. -/
theorem C116_join_raises {t globals : Val} {p : Path} (h : KeyAt t globals "Fn::Join" p (.list [])) : ∃ e, subNotJoinRule t globals = .error e := by
  unfold subNotJoinRule
  cases hc : collectM emptyJoin (searchDeepKeys "Fn::Join" t globals) with
  | error e => exact ⟨e, rfl⟩
  | ok l =>
    obtain ⟨l', h'⟩ := collectM_each hc _ (mem_keyAt.2 h)
    cases h'

example : ∃ e, subNotJoinRule (.dict [(.str "Fn::Join", .list [])]) (.dict []) = .error e :=
  C116_join_raises (p := [.str "Fn::Join"]) ⟨⟨[], rfl⟩, .inl (.key (by simp) .here)⟩

/-- C116: E1026 finds exactly the references to resources in the conditions. -/
theorem C116_conditions {top : List (Key × Val)} (hw : (Val.dict top).WF) (globals : Val) :
    ∃ l, refInConditionRule (.dict top) globals = .ok l ∧ ∀ p, p ∈ l ↔ ∃ q w, p = .str "Conditions" :: q ∧ KeyAt (.dict top) globals "Ref" p w ∧ NamesResource (.dict top) w := by
  rw [Val.WF] at hw
  have hnames : ∃ names, resourceNamesOf (.dict top) = .ok names ∧ ∀ w, namedBy names w = true ↔ NamesResource (.dict top) w := by
    unfold resourceNamesOf NamesResource
    simp only [Val.getD, at_dict_one]
    cases hd : dlookup (Key.str "Resources") top with
    | none =>
      refine ⟨[], rfl, fun w => ?_⟩
      constructor
      · intro h
        unfold namedBy at h
        split at h <;> simp at h
      · rintro ⟨rs, v, h, -⟩
        rw [dlookup_of_mem hw.1 h] at hd
        cases hd
    | some sec =>
      simp only [Option.getD_some]
      by_cases hs : ∃ rs, sec = .dict rs
      · obtain ⟨rs, rfl⟩ := hs
        refine ⟨_, rfl, fun w => ?_⟩
        have hone : ∀ k, k ∈ rs.map Prod.fst ↔ ∃ v, (k, v) ∈ rs := by
          intro k
          simp
        unfold namedBy
        constructor
        · intro h
          cases w with
          | str s =>
            simp only [toKey, decide_eq_true_eq, hone] at h
            obtain ⟨v, h⟩ := h
            exact ⟨rs, v, dlookup_mem hd, .inl ⟨s, rfl, h⟩⟩
          | int i =>
            simp only [toKey, decide_eq_true_eq, hone] at h
            obtain ⟨v, h⟩ := h
            exact ⟨rs, v, dlookup_mem hd, .inr ⟨i, .inl rfl, h⟩⟩
          | bool b =>
            simp only [toKey, decide_eq_true_eq, hone] at h
            obtain ⟨v, h⟩ := h
            exact ⟨rs, v, dlookup_mem hd, .inr ⟨_, .inr ⟨b, rfl, rfl⟩, h⟩⟩
          | _ => cases h
        · rintro ⟨rs', v, h, h'⟩
          rw [dlookup_of_mem hw.1 h] at hd
          cases hd
          rcases h' with ⟨s, rfl, h'⟩ | ⟨i, rfl | ⟨b, rfl, rfl⟩, h'⟩
          · simp only [toKey, decide_eq_true_eq, hone]
            exact ⟨v, h'⟩
          · simp only [toKey, decide_eq_true_eq, hone]
            exact ⟨v, h'⟩
          · simp only [toKey, decide_eq_true_eq, hone]
            exact ⟨v, h'⟩
      · refine ⟨[], ?_, fun w => ?_⟩
        · cases sec with
          | dict rs => exact absurd ⟨rs, rfl⟩ hs
          | _ => rfl
        · constructor
          · intro h
            unfold namedBy at h
            split at h <;> simp at h
          · rintro ⟨rs, v, h, -⟩
            rw [dlookup_of_mem hw.1 h] at hd
            cases hd
            exact absurd ⟨rs, rfl⟩ hs
  obtain ⟨names, hn, hiff⟩ := hnames
  unfold refInConditionRule
  rw [hn]
  refine ⟨_, rfl, fun p => ?_⟩
  rw [List.mem_flatMap]
  constructor
  · rintro ⟨⟨p', w⟩, hm, h⟩
    split at h
    · rename_i hc
      rw [List.mem_singleton] at h
      subst h
      obtain ⟨c1, c2⟩ := hc
      cases p with
      | nil => cases c1
      | cons k q =>
        cases c1
        exact ⟨q, w, rfl, mem_keyAt.1 hm, (hiff w).1 c2⟩
    · cases h
  · rintro ⟨q, w, rfl, hk, hr⟩
    refine ⟨(_, w), mem_keyAt.2 hk, ?_⟩
    rw [if_pos ⟨rfl, (hiff w).2 hr⟩]
    exact List.mem_singleton.2 rfl

example : refInConditionRule (.dict [(.str "Conditions", .dict [(.str "C", .dict [(.str "Ref", .str "R")])]), (.str "Resources", .dict [(.str "R", .none)])]) (.dict []) =
    .ok [[.str "Conditions", .str "C", .str "Ref"]] := by decide +kernel

/-- C116: E2014 finds exactly the keys `Ref` in the parameters; the path that is reported ends with the value. -/
theorem C116_parameters_partial (t globals : Val) (p : Path) (w : Val) :
    (p, w) ∈ defaultRefRule t globals ↔ KeyAt t globals "Ref" p w ∧ ∃ q, p = .str "Parameters" :: q := by
  unfold defaultRefRule
  rw [List.mem_filter, mem_keyAt]
  refine and_congr_right (fun _ => ?_)
  rw [beq_iff_eq]
  cases p with
  | nil => simp
  | cons k q => simp

/-- C116, as one would want it: only references are found. -/
def C116_parameters_statement : Prop := ∀ t p w, t.WF → (p, w) ∈ defaultRefRule t (.dict []) → ∃ q, p = q ++ [.str "Ref"] ∧ At t q (.dict [(.str "Ref", w)])

/-- C116: a parameter with the name `Ref` is taken for a reference. -/
theorem C116_parameters_violated : ¬ C116_parameters_statement := by
  intro h
  obtain ⟨q, e, hq⟩ := h (.dict [(.str "Parameters", .dict [(.str "Ref", .dict [(.str "Type", .str "String")]), (.str "B", .int 0)])]) [.str "Parameters", .str "Ref"]
    (.dict [(.str "Type", .str "String")]) (by simp [Val.WF, Val.WFDict]) (by decide +kernel)
  have : q = [.str "Parameters"] := by
    rcases q with _ | ⟨a, _ | ⟨b, q⟩⟩
    · simp at e
    · simp at e
      rw [e]
    · have := congrArg List.length e
      simp at this
  subst this
  rw [at_dict_one] at hq
  simp at hq

theorem mem_mapKeyCheck {b : Bool} {k : Key} {path m : Path} : m ∈ mapKeyCheck b k path ↔ m = path ∧ ((∃ i, k = .int i) ∨ b = true ∧ ∀ s, k = .str s → ¬ MaybeBreak Alnum s) := by
  unfold mapKeyCheck
  cases k with
  | int i => simp
  | str s =>
    have := C74_alphanumeric s
    cases b
    · simp
    · by_cases h : MaybeBreak Alnum s
      · simp [this.2 h, h]
      · have hf : regexAlphanumeric.matchesAll s = false := by
          rw [← Bool.not_eq_true]
          exact fun h' => h (this.1 h')
        simp [hf, h]

/-- C116: E7003 finds exactly the wrong keys of mappings. -/
theorem C116_mappings {top : List (Key × Val)} (hw : (Val.dict top).WF) (hd : ∀ v, (Key.str "Mappings", v) ∈ top → ∃ ms, v = .dict ms) :
    ∃ l, keyNameRule (.dict top) = .ok l ∧ ∀ p, p ∈ l ↔ BadMapKey (.dict top) p := by
  rw [Val.WF] at hw
  have hno : dlookup (Key.str "Mappings") top = none → ∀ m w, ¬ At (.dict top) [.str "Mappings", m] w := by
    intro h m w ha
    cases ha with
    | key h1 _ =>
      rw [dlookup_of_mem hw.1 h1] at h
      cases h
  have hat : ∀ ms, (Key.str "Mappings", Val.dict ms) ∈ top → ∀ m w, At (.dict top) [.str "Mappings", m] w ↔ (m, w) ∈ ms := by
    intro ms hm m w
    constructor
    · intro ha
      cases ha with
      | key h1 h2 =>
        have := dlookup_of_mem hw.1 h1
        rw [dlookup_of_mem hw.1 hm] at this
        cases this
        exact at_dict_one.1 h2
    · exact fun h => .key hm (.key h .here)
  unfold keyNameRule
  simp only [Val.getD]
  cases hl : dlookup (Key.str "Mappings") top with
  | none =>
    refine ⟨[], rfl, fun p => ?_⟩
    simp only [List.not_mem_nil, false_iff]
    intro h
    cases h with
    | row h => exact hno hl _ _ h
    | cell h => exact hno hl _ _ h
  | some v =>
    have hm := dlookup_mem hl
    obtain ⟨ms, rfl⟩ := hd v hm
    refine ⟨_, rfl, fun p => ?_⟩
    rw [List.mem_flatMap]
    constructor
    · rintro ⟨⟨m, v⟩, h1, h2⟩
      unfold mapKeys at h2
      split at h2
      · rename_i rows e
        dsimp only at e
        subst e
        rw [List.mem_flatMap] at h2
        obtain ⟨⟨k, w⟩, h3, h4⟩ := h2
        rw [List.mem_append] at h4
        rcases h4 with h4 | h4
        · rw [mem_mapKeyCheck] at h4
          obtain ⟨rfl, ⟨i, e⟩ | ⟨e, -⟩⟩ := h4
          · dsimp only at e
            subst e
            exact .row ((hat ms hm _ _).2 h1) h3
          · cases e
        · split at h4
          · rename_i cells e
            dsimp only at e
            subst e
            rw [List.mem_flatMap] at h4
            obtain ⟨⟨c, x⟩, h5, h6⟩ := h4
            rw [mem_mapKeyCheck] at h6
            obtain ⟨rfl, h6⟩ := h6
            refine .cell ((hat ms hm _ _).2 h1) h3 h5 ?_
            rcases h6 with ⟨i, rfl⟩ | ⟨-, h6⟩
            · intro s e
              cases e
            · exact h6
          · cases h4
      · cases h2
    · intro h
      cases h with
      | row h1 h2 =>
        refine ⟨(_, .dict _), (hat ms hm _ _).1 h1, ?_⟩
        unfold mapKeys
        rw [List.mem_flatMap]
        exact ⟨_, h2, List.mem_append_left _ (mem_mapKeyCheck.2 ⟨rfl, .inl ⟨_, rfl⟩⟩)⟩
      | @cell m rows r cells k v h1 h2 h3 h4 =>
        refine ⟨(_, .dict _), (hat ms hm _ _).1 h1, ?_⟩
        unfold mapKeys
        rw [List.mem_flatMap]
        refine ⟨_, h2, List.mem_append_right _ ?_⟩
        rw [List.mem_flatMap]
        exact ⟨_, h3, mem_mapKeyCheck.2 ⟨rfl, .inr ⟨rfl, h4⟩⟩⟩

example : BadMapKey (.dict [(.str "Mappings", .dict [(.str "M", .dict [(.str "us-east-1", .dict [(.str "a-b", .int 1)])])])]) [.str "Mappings", .str "M", .str "us-east-1", .str "a-b"] :=
  .cell (rows := [(.str "us-east-1", .dict [(.str "a-b", .int 1)])]) (cells := [(.str "a-b", .int 1)]) (v := .int 1) (.key (List.mem_cons_self ..) (.key (List.mem_cons_self ..) .here)) (by simp)
    (by simp) (fun s e => by cases e; exact fun h => absurd ((C74_alphanumeric _).2 h) (by decide +kernel))

/-- C116: mappings that are no dictionary end the rule with an error. -/
theorem C116_mappings_raises {top : List (Key × Val)} (hw : (Val.dict top).WF) {v : Val} (h : (Key.str "Mappings", v) ∈ top) (hd : ∀ ms, v ≠ .dict ms) :
    ∃ e, keyNameRule (.dict top) = .error e := by
  rw [Val.WF] at hw
  unfold keyNameRule
  simp only [Val.getD, dlookup_of_mem hw.1 h, Option.getD_some]
  cases v with
  | dict ms => exact absurd rfl (hd ms)
  | _ => exact ⟨_, rfl⟩

example : ∃ e, keyNameRule (.dict [(.str "Mappings", .none)]) = .error e :=
  C116_mappings_raises (by simp [Val.WF, Val.WFDict]) (List.mem_cons_self ..) (by simp)

/-- C116: E1001 finds exactly the keys of the template that are no sections, and missing resources. -/
theorem C116_sections (top : List (Key × Val)) (p : Path) : p ∈ baseRule top ↔
    (∃ k v, (k, v) ∈ top ∧ p = [k] ∧ ∀ s, k = .str s → s ∉ ["AWSTemplateFormatVersion", "Description", "Metadata", "Parameters", "Mappings", "Conditions", "Transform", "Hooks",
      "Resources", "Outputs", "Rules"]) ∨
    ((∀ v, (Key.str "Resources", v) ∉ top) ∧ p = [.str "Resources"]) := by
  unfold baseRule
  rw [List.mem_append, List.mem_flatMap]
  refine or_congr ?_ ?_
  · constructor
    · rintro ⟨⟨k, v⟩, h1, h2⟩
      split at h2
      · cases h2
      · rename_i hc
        rw [List.mem_singleton] at h2
        refine ⟨k, v, h1, h2, ?_⟩
        rintro s rfl hs
        exact hc (List.any_eq_true.2 ⟨s, hs, by simp⟩)
    · rintro ⟨k, v, h1, rfl, h2⟩
      refine ⟨(k, v), h1, ?_⟩
      rw [if_neg]
      · exact List.mem_singleton.2 rfl
      · intro hc
        obtain ⟨s, hs, e⟩ := List.any_eq_true.1 hc
        rw [beq_iff_eq] at e
        exact h2 s e.symm hs
  · rw [List.flatMap_singleton]
    by_cases h : ∃ v, (Key.str "Resources", v) ∈ top
    · obtain ⟨v, h⟩ := h
      rw [if_pos (List.any_eq_true.2 ⟨_, h, by simp⟩)]
      simp only [List.not_mem_nil, false_iff]
      rintro ⟨h', -⟩
      exact h' v h
    · rw [if_neg]
      · rw [List.mem_singleton]
        exact ⟨fun e => ⟨fun v hv => h ⟨v, hv⟩, e⟩, fun e => e.2⟩
      · intro hc
        obtain ⟨⟨k, v⟩, hm, e⟩ := List.any_eq_true.1 hc
        rw [beq_iff_eq] at e
        dsimp only at e
        subst e
        exact h ⟨v, hm⟩

end CfnLint
