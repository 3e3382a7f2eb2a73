import Verif.Spec.Stages
import Verif.Lemmas.Dict
import Verif.Lemmas.PathConds
import Mathlib.Data.List.Forall2
import Mathlib.Data.List.Nodup
import Verif.Lemmas.Graph
import Verif.Props.Projection
/-
C95: E2540 reports the faults of the stages of a pipeline.
-/
namespace CfnLint
open Spec

/-! ### One list of stages -/

theorem category_of {c : String} {v : Val} (hw : v.WF) (h : ActionOf c v) : categoryOf v = .ok (.str c) := by
  obtain ⟨a, ty, rfl, h1, h2⟩ := h
  have hty : (Val.dict ty).WF := at_wf (.key h1 .here) hw
  rw [Val.WF] at hw hty
  simp [categoryOf, Val.getD, dlookup_of_mem hw.1 h1, dlookup_of_mem hty.1 h2]

theorem categories_of : ∀ {cs : List String} {as : List Val}, (∀ a ∈ as, a.WF) → List.Forall₂ ActionOf cs as →
    categoriesOf as = .ok (cs.map Val.str)
  | _, _, _, .nil => rfl
  | _, _, hw, .cons h1 h2 => by
    rw [categoriesOf, category_of (hw _ List.mem_cons_self) h1,
      categories_of (fun a ha => hw a (List.mem_cons_of_mem _ ha)) h2]
    rfl

theorem sourceActions_spec (path : Path) (sc : Option Scenario) (i : Nat) : ∀ {cs : List String} {as : List Val} (j : Nat),
    (∀ a ∈ as, a.WF) → List.Forall₂ ActionOf cs as → ∃ l, sourceActions path sc i j as = .ok (l, cs.map Val.str) ∧
      ∀ r, r ∈ l ↔ 0 < i ∧ ∃ k : Nat, cs[k]? = some "Source" ∧ r = ⟨.source, path ++ [.int i, .str "Actions", .int ((j + k : Nat) : Int)], sc⟩
  | _, _, j, _, .nil => ⟨[], rfl, by simp⟩
  | _, _, j, hw, .cons (a := c) (l₁ := cs) h1 h2 => by
    obtain ⟨l, hl, hm⟩ := sourceActions_spec path sc i (j + 1) (fun a ha => hw a (List.mem_cons_of_mem _ ha)) h2
    refine ⟨_, by rw [sourceActions, category_of (hw _ List.mem_cons_self) h1]; simp only [canHash, hl]; rfl, ?_⟩
    intro r
    rw [List.mem_append, hm r]
    constructor
    · rintro (h | ⟨hi, k, hk, rfl⟩)
      · by_cases hc : i > 0 ∧ Val.str c = .str "Source"
        · rw [if_pos hc] at h
          simp only [List.mem_singleton] at h
          obtain ⟨hi, he⟩ := hc
          injection he with he
          exact ⟨hi, 0, by simp [he], by simpa using h⟩
        · rw [if_neg hc] at h; cases h
      · refine ⟨hi, k + 1, by simpa using hk, ?_⟩
        rw [show j + 1 + k = j + (k + 1) by omega]
    · rintro ⟨hi, k, hk, rfl⟩
      cases k with
      | zero =>
        simp only [List.getElem?_cons_zero, Option.some.injEq] at hk
        subst hk
        exact .inl (by simp [hi])
      | succ k =>
        refine .inr ⟨hi, k, by simpa using hk, ?_⟩
        rw [show j + 1 + k = j + (k + 1) by omega]

theorem stage_get {s : StageInfo} {v : Val} (hw : v.WF) (h : StageOf s v) : ∃ as, actionsAt v = .ok (.list as) ∧
    v.getD "Actions" (.list []) = .ok (.list as) ∧ v.getD "Name" .none = .ok (.str s.name) ∧ (∀ a ∈ as, a.WF) ∧ List.Forall₂ ActionOf s.categories as := by
  obtain ⟨kvs, as, rfl, h1, h2, h3⟩ := h
  have hl : (Val.list as).WF := at_wf (.key h2 .here) hw
  have hk := hw
  rw [Val.WF] at hk
  refine ⟨as, ?_, ?_, ?_, ?_, h3⟩
  · simp [actionsAt, dlookup_of_mem hk.1 h2]
  · simp [Val.getD, dlookup_of_mem hk.1 h2]
  · simp [Val.getD, dlookup_of_mem hk.1 h1]
  · intro a ha
    obtain ⟨i, hi, he⟩ := List.getElem_of_mem ha
    exact at_wf (.idx (by rw [List.getElem?_eq_getElem hi, he]) .here) hl

theorem sourceStages_spec (path : Path) (sc : Option Scenario) : ∀ {ss : List StageInfo} {xs : List Val} (i : Nat),
    (∀ x ∈ xs, x.WF) → List.Forall₂ StageOf ss xs → ∃ l, sourceStages path sc i xs = .ok (l, (ss.flatMap StageInfo.categories).map Val.str) ∧
      ∀ r, r ∈ l ↔ ∃ k j : Nat, 0 < i + k ∧ ∃ s, ss[k]? = some s ∧ s.categories[j]? = some "Source" ∧
        r = ⟨.source, path ++ [.int ((i + k : Nat) : Int), .str "Actions", .int (j : Int)], sc⟩
  | _, _, i, _, .nil => ⟨[], rfl, by simp⟩
  | _, _, i, hw, .cons (a := s) (l₁ := ss) h1 h2 => by
    obtain ⟨as, _, ha, _, hwa, hf⟩ := stage_get (hw _ List.mem_cons_self) h1
    obtain ⟨l1, hl1, hm1⟩ := sourceActions_spec path sc i 0 hwa hf
    obtain ⟨l2, hl2, hm2⟩ := sourceStages_spec path sc (i + 1) (fun x hx => hw x (List.mem_cons_of_mem _ hx)) h2
    refine ⟨l1 ++ l2, by simp [sourceStages, ha, iterOf, hl1, hl2], ?_⟩
    intro r
    rw [List.mem_append, hm1 r, hm2 r]
    constructor
    · rintro (⟨hi, j, hj, rfl⟩ | ⟨k, j, hk, s', hs, hj, rfl⟩)
      · exact ⟨0, j, by omega, s, rfl, hj, by simp⟩
      · refine ⟨k + 1, j, by omega, s', by simpa using hs, hj, ?_⟩
        rw [show i + 1 + k = i + (k + 1) by omega]
    · rintro ⟨k, j, hk, s', hs, hj, rfl⟩
      cases k with
      | zero =>
        simp only [List.getElem?_cons_zero, Option.some.injEq] at hs
        subst hs
        exact .inl ⟨by omega, j, hj, by simp⟩
      | succ k =>
        refine .inr ⟨k, j, by omega, s', by simpa using hs, hj, ?_⟩
        rw [show i + 1 + k = i + (k + 1) by omega]

theorem stageNames_spec (path : Path) (sc : Option Scenario) : ∀ {ss : List StageInfo} {xs : List Val} (i : Nat) (seen : List String),
    (∀ x ∈ xs, x.WF) → List.Forall₂ StageOf ss xs → ∃ l, stageNames path sc i seen xs = .ok l ∧
      ∀ r, r ∈ l ↔ ∃ k s, ss[k]? = some s ∧ (s.name ∈ seen ∨ ∃ m s', m < k ∧ ss[m]? = some s' ∧ s'.name = s.name) ∧
        r = ⟨.name s.name, path ++ [.int ((i + k : Nat) : Int), .str "Name"], sc⟩
  | _, _, i, seen, _, .nil => ⟨[], rfl, by simp⟩
  | _, _, i, seen, hw, .cons (a := s) (l₁ := ss) h1 h2 => by
    obtain ⟨as, _, _, hn, _, _⟩ := stage_get (hw _ List.mem_cons_self) h1
    obtain ⟨l, hl, hm⟩ := stageNames_spec path sc (i + 1) (s.name :: seen) (fun x hx => hw x (List.mem_cons_of_mem _ hx)) h2
    refine ⟨_, by rw [stageNames, hn]; simp only [hl]; rfl, ?_⟩
    intro r
    rw [List.mem_append, hm r]
    constructor
    · rintro (h | ⟨k, s', hk, hs, rfl⟩)
      · by_cases hc : s.name ∈ seen
        · rw [if_pos hc] at h
          simp only [List.mem_singleton] at h
          exact ⟨0, s, rfl, .inl hc, by simpa using h⟩
        · rw [if_neg hc] at h; cases h
      · refine ⟨k + 1, s', by simpa using hk, ?_, by rw [show i + 1 + k = i + (k + 1) by omega]⟩
        rcases hs with hs | ⟨m, s'', hm', hs1, hs2⟩
        · rcases List.mem_cons.1 hs with hs | hs
          · exact .inr ⟨0, s, by omega, rfl, hs.symm⟩
          · exact .inl hs
        · exact .inr ⟨m + 1, s'', by omega, by simpa using hs1, hs2⟩
    · rintro ⟨k, s', hk, hs, rfl⟩
      cases k with
      | zero =>
        simp only [List.getElem?_cons_zero, Option.some.injEq] at hk
        subst hk
        rcases hs with hs | ⟨m, _, hm', _⟩
        · exact .inl (by simp [hs])
        · omega
      | succ k =>
        refine .inr ⟨k, s', by simpa using hk, ?_, by rw [show i + 1 + k = i + (k + 1) by omega]⟩
        rcases hs with hs | ⟨m, s'', hm', hs1, hs2⟩
        · exact .inl (List.mem_cons_of_mem _ hs)
        · cases m with
          | zero =>
            simp only [List.getElem?_cons_zero, Option.some.injEq] at hs1
            subst hs1
            exact .inl (by rw [hs2]; exact List.mem_cons_self)
          | succ m => exact .inr ⟨m, s'', by omega, by simpa using hs1, hs2⟩

theorem eraseDups_one {α : Type} [DecidableEq α] {l : List α} : l.eraseDups.length = 1 ↔ ∃ c ∈ l, ∀ d ∈ l, d = c := by
  cases l with
  | nil => simp
  | cons a rest =>
    rw [List.eraseDups_cons]
    simp only [List.length_cons, Nat.add_eq_right, List.length_eq_zero_iff]
    constructor
    · intro h
      refine ⟨a, List.mem_cons_self, fun d hd => ?_⟩
      rcases List.mem_cons.1 hd with hd | hd
      · exact hd
      · by_contra hne
        have : d ∈ (rest.filter (fun b => !b == a)).eraseDups := by
          rw [List.mem_eraseDups, List.mem_filter]
          exact ⟨hd, by simp [hne]⟩
        rw [h] at this
        cases this
    · rintro ⟨c, hc, hall⟩
      have ha := hall a List.mem_cons_self
      subst ha
      have : rest.filter (fun b => !b == a) = [] := by
        rw [List.filter_eq_nil_iff]
        intro d hd
        simp [hall d (List.mem_cons_of_mem _ hd)]
      rw [this]
      rfl

theorem stageFirst_spec (path : Path) (sc : Option Scenario) {ss : List StageInfo} {xs : List Val} (hw : ∀ x ∈ xs, x.WF)
    (h : List.Forall₂ StageOf ss xs) : ∃ l, stageFirst xs path sc = .ok l ∧ ∀ r, r ∈ l ↔ ∃ s, ss[0]? = some s ∧
      ((s.categories ≠ [] ∧ "Source" ∉ s.categories ∧ r = ⟨.noSource, path ++ [.int 0, .str "Name"], sc⟩) ∨
       ((¬ ∃ c ∈ s.categories, ∀ d ∈ s.categories, d = c) ∧ r = ⟨.onlySource, path ++ [.int 0, .str "Name"], sc⟩)) := by
  cases h with
  | nil => exact ⟨[], rfl, by simp⟩
  | @cons s x ss xs h1 h2 =>
    obtain ⟨as, ha, _, _, hwa, hf⟩ := stage_get (hw _ List.mem_cons_self) h1
    have hall : ((s.categories.map Val.str).all canHash) = true := by
      rw [List.all_eq_true]
      intro v hv
      obtain ⟨c, _, rfl⟩ := List.mem_map.1 hv
      rfl
    refine ⟨_, by simp only [stageFirst, ha, iterOf, categories_of hwa hf, hall]; rfl, ?_⟩
    intro r
    have hsrc : Val.str "Source" ∈ s.categories.map Val.str ↔ "Source" ∈ s.categories := by
      rw [List.mem_map]
      constructor
      · rintro ⟨c, hc, he⟩; injection he with he; exact he ▸ hc
      · intro hc; exact ⟨_, hc, rfl⟩
    have hone : (s.categories.map Val.str).eraseDups.length = 1 ↔ ∃ c ∈ s.categories, ∀ d ∈ s.categories, d = c := by
      rw [eraseDups_one]
      constructor
      · rintro ⟨v, hv, hd⟩
        obtain ⟨c, hc, rfl⟩ := List.mem_map.1 hv
        refine ⟨c, hc, fun d hdm => ?_⟩
        have := hd _ (List.mem_map.2 ⟨d, hdm, rfl⟩)
        injection this
      · rintro ⟨c, hc, hd⟩
        refine ⟨_, List.mem_map.2 ⟨c, hc, rfl⟩, ?_⟩
        intro v hv
        obtain ⟨d, hdm, rfl⟩ := List.mem_map.1 hv
        rw [hd d hdm]
    rw [List.mem_append]
    simp only [List.getElem?_cons_zero, Option.some.injEq, exists_eq_left', ne_eq, hsrc, hone, List.map_eq_nil_iff]
    refine or_congr ?_ ?_
    · by_cases p1 : ¬ s.categories = [] ∧ "Source" ∉ s.categories
      · rw [if_pos p1]; simp only [List.mem_singleton]; tauto
      · rw [if_neg p1]; simp only [List.not_mem_nil]; tauto
    · by_cases p2 : ∃ c ∈ s.categories, ∀ d ∈ s.categories, d = c
      · rw [if_neg (not_not.2 p2)]; simp only [List.not_mem_nil, false_iff]; exact fun h => h.1 p2
      · rw [if_pos p2]; simp only [List.mem_singleton]; exact ⟨fun h => ⟨p2, h⟩, fun h => h.2⟩

theorem stageSources_spec (path : Path) (sc : Option Scenario) {ss : List StageInfo} {xs : List Val} (hw : ∀ x ∈ xs, x.WF)
    (h : List.Forall₂ StageOf ss xs) : ∃ l, stageSources xs path sc = .ok l ∧ ∀ r, r ∈ l ↔
      (∃ i j : Nat, 0 < i ∧ ∃ s, ss[i]? = some s ∧ s.categories[j]? = some "Source" ∧
        r = ⟨.source, path ++ [.int (i : Int), .str "Actions", .int (j : Int)], sc⟩) ∨
      (ss ≠ [] ∧ (∀ s ∈ ss, ∀ c ∈ s.categories, c = "Source") ∧ r = ⟨.allSource, path, sc⟩) := by
  cases hx : xs with
  | nil => subst hx; cases h; exact ⟨[], rfl, by simp⟩
  | cons x rest =>
    obtain ⟨l, hl, hm⟩ := sourceStages_spec path sc 0 hw h
    have hne : ss ≠ [] := by rintro rfl; subst hx; cases h
    rw [hx] at hl
    refine ⟨_, by simp only [stageSources, hl]; rfl, ?_⟩
    intro r
    have hall : (((ss.flatMap StageInfo.categories).map Val.str).all (fun c => decide (c = Val.str "Source")) = true) ↔
        ∀ s ∈ ss, ∀ c ∈ s.categories, c = "Source" := by
      simp only [List.all_eq_true, List.mem_map, List.mem_flatMap, decide_eq_true_eq]
      constructor
      · intro h s hs c hc
        have := h (.str c) ⟨c, ⟨s, hs, hc⟩, rfl⟩
        injection this
      · rintro h v ⟨c, ⟨s, hs, hc⟩, rfl⟩
        rw [h s hs c hc]
    rw [List.mem_append, hm r]
    refine or_congr ?_ ?_
    · simp only [Nat.zero_add]
    · by_cases p : ∀ s ∈ ss, ∀ c ∈ s.categories, c = "Source"
      · rw [if_pos (hall.2 p)]
        simp only [List.mem_singleton]
        tauto
      · rw [if_neg (fun h => p (hall.1 h))]
        simp only [List.not_mem_nil]
        tauto

/-- **C95** For stages with names and actions with categories the findings are exactly the faults. -/
theorem C95_exact {ss : List StageInfo} {xs : List Val} {path : Path} {sc : Option Scenario} (hw : (Val.list xs).WF)
    (h : List.Forall₂ StageOf ss xs) : ∃ res, stagesCheck xs path sc = .ok res ∧
      ∀ r, r ∈ res ↔ ∃ msg q, StageFault ss msg q ∧ r = ⟨msg, path ++ q, sc⟩ := by
  have hwx : ∀ x ∈ xs, x.WF := by
    intro x hx
    obtain ⟨i, hi, he⟩ := List.getElem_of_mem hx
    exact at_wf (.idx (by rw [List.getElem?_eq_getElem hi, he]) .here) hw
  have hlen : ss.length = xs.length := h.length_eq
  obtain ⟨l1, h1, m1⟩ := stageFirst_spec path sc hwx h
  obtain ⟨l2, h2, m2⟩ := stageSources_spec path sc hwx h
  obtain ⟨l3, h3, m3⟩ := stageNames_spec path sc 0 [] hwx h
  refine ⟨_, by simp only [stagesCheck, stageCount, extendStages, h1, h2, h3]; rfl, ?_⟩
  intro r
  simp only [List.mem_append, m1 r, m2 r, m3 r, List.append_nil, List.mem_nil_iff, or_false]
  constructor
  · rintro (hc | ⟨s, hs, ⟨a, b, rfl⟩ | ⟨a, rfl⟩⟩ | (⟨i, j, hi, s, hs, hj, rfl⟩ | ⟨hne, hall, rfl⟩) | ⟨k, s, hs, hm, rfl⟩)
    · by_cases hlt : xs.length < 2
      · rw [if_pos hlt] at hc
        simp only [List.mem_singleton] at hc
        exact ⟨_, [], .few (by omega), by rw [hc, hlen]; simp⟩
      · rw [if_neg hlt] at hc; cases hc
    · exact ⟨_, _, .noSource hs a b, rfl⟩
    · exact ⟨_, _, .onlySource hs a, rfl⟩
    · exact ⟨_, _, .source hi hs hj, rfl⟩
    · exact ⟨_, [], .allSource hne hall, by simp⟩
    · rcases hm with hm | ⟨m, s', hlt, hs', hn⟩
      · cases hm
      · exact ⟨_, _, .name hlt hs' hs hn, by simp⟩
  · rintro ⟨msg, q, hf, rfl⟩
    cases hf with
    | few hlt => exact .inl (by rw [if_pos (by omega)]; simp [hlen])
    | noSource a b c => exact .inr (.inl ⟨_, a, .inl ⟨b, c, rfl⟩⟩)
    | onlySource a b => exact .inr (.inl ⟨_, a, .inr ⟨b, rfl⟩⟩)
    | source a b c => exact .inr (.inr (.inl (.inl ⟨_, _, a, _, b, c, rfl⟩)))
    | allSource a b => exact .inr (.inr (.inl (.inr ⟨a, b, by simp⟩)))
    | name a b c d => exact .inr (.inr (.inr ⟨_, _, c, .inr ⟨_, _, a, b, d⟩, by simp⟩))

/-- a pipeline has no fault exactly if it meets the requirements -/
theorem fault_iff {ss : List StageInfo} : (∀ msg q, ¬ StageFault ss msg q) ↔ GoodPipeline ss := by
  constructor
  · intro h
    have htwo : 2 ≤ ss.length := by
      by_contra hlt
      exact h _ _ (.few (by omega))
    have hne : ss ≠ [] := by rintro rfl; simp at htwo
    refine ⟨htwo, ?_, ?_, ?_, ?_⟩
    · intro s hs
      have hone : ∃ c ∈ s.categories, ∀ d ∈ s.categories, d = c := by
        by_contra hno
        exact h _ _ (.onlySource hs hno)
      obtain ⟨c, hc, hall⟩ := hone
      have hcn : s.categories ≠ [] := by rintro he; rw [he] at hc; cases hc
      have hsrc : "Source" ∈ s.categories := by
        by_contra hno
        exact h _ _ (.noSource hs hcn hno)
      refine ⟨hcn, fun d hd => ?_⟩
      rw [hall d hd, hall _ hsrc]
    · intro i s hi hs hm
      obtain ⟨j, hj, he⟩ := List.getElem_of_mem hm
      exact h _ _ (.source hi hs (by rw [List.getElem?_eq_getElem hj, he]))
    · by_contra hno
      refine h _ _ (.allSource hne ?_)
      intro s hs c hc
      by_contra hcne
      exact hno ⟨s, hs, c, hc, hcne⟩
    · rw [List.nodup_iff_getElem?_ne_getElem?]
      intro i j hij hj he
      rw [List.length_map] at hj
      have hi : i < ss.length := by omega
      rw [List.getElem?_map, List.getElem?_map, List.getElem?_eq_getElem hi, List.getElem?_eq_getElem hj] at he
      simp only [Option.map_some, Option.some.injEq] at he
      exact h _ _ (.name hij (List.getElem?_eq_getElem hi) (List.getElem?_eq_getElem hj) he)
  · rintro ⟨h1, h2, h3, h4, h5⟩ msg q hf
    cases hf with
    | few hlt => omega
    | noSource hs hne hno =>
      obtain ⟨a, b⟩ := h2 _ hs
      obtain ⟨c, hc⟩ := List.exists_mem_of_ne_nil _ a
      exact hno (b c hc ▸ hc)
    | onlySource hs hno =>
      obtain ⟨a, b⟩ := h2 _ hs
      obtain ⟨c, hc⟩ := List.exists_mem_of_ne_nil _ a
      exact hno ⟨c, hc, fun d hd => by rw [b d hd, b c hc]⟩
    | source hi hs hj => exact h3 _ _ hi hs (List.mem_of_getElem? hj)
    | allSource _ hall =>
      obtain ⟨s, hs, c, hc, hne⟩ := h4
      exact hne (hall s hs c hc)
    | @name i j s s' hlt hi hj hn =>
      rw [List.nodup_iff_getElem?_ne_getElem?] at h5
      obtain ⟨hjl, _⟩ := List.getElem?_eq_some_iff.1 hj
      exact h5 i j hlt (by rw [List.length_map]; exact hjl) (by simp [hi, hj, hn])

/-- **C95** There are no findings exactly if the pipeline meets the requirements. -/
theorem C95_silent_iff {ss : List StageInfo} {xs : List Val} {path : Path} {sc : Option Scenario} (hw : (Val.list xs).WF)
    (h : List.Forall₂ StageOf ss xs) : stagesCheck xs path sc = .ok [] ↔ GoodPipeline ss := by
  obtain ⟨res, hr, hm⟩ := C95_exact (path := path) (sc := sc) hw h
  rw [hr, ← fault_iff]
  constructor
  · intro he msg q hf
    injection he with he
    have := (hm _).2 ⟨msg, q, hf, rfl⟩
    rw [he] at this
    cases this
  · intro hno
    congr 1
    rw [List.eq_nil_iff_forall_not_mem]
    intro r hr
    obtain ⟨msg, q, hf, _⟩ := (hm r).1 hr
    exact hno msg q hf

/-! ### Pipelines -/

/-- **C95** Without conditions the findings of a pipeline are its faults. -/
theorem C95_pipeline {ss : List StageInfo} {xs : List Val} {path : Path} (hw : (Val.list xs).WF) (h : List.Forall₂ StageOf ss xs) :
    ∃ res, stagesOf [] (.list xs) path = .ok res ∧ ∀ r, r ∈ res ↔ ∃ msg q, StageFault ss msg q ∧ r = ⟨msg, path ++ q, none⟩ := by
  obtain ⟨res, hr, hm⟩ := C95_exact (path := path) (sc := none) hw h
  refine ⟨res, ?_, hm⟩
  unfold stagesOf
  rw [(C32_deep_no_scenarios (.list xs)).2.2 (by simp) (.inr ⟨_, rfl⟩)]
  simp [collectM, hr]

/-- **C95** With conditions the findings are the faults of what is left of the stages in the scenarios, with the places counted there. -/
theorem C95_scenarios {scs : List Scenario} {v : Val} {path : Path} {sets : List (Option Scenario × Val)} (hs : objectsDeep scs v = .ok sets)
    (hall : ∀ s ∈ sets, (∀ xs, s.2 ≠ .list xs) ∨ ∃ xs ss, s.2 = .list xs ∧ s.2.WF ∧ List.Forall₂ StageOf ss xs) :
    ∃ res, stagesOf scs v path = .ok res ∧ ∀ r, r ∈ res ↔ ∃ s ∈ sets, ∃ xs ss, s.2 = .list xs ∧ List.Forall₂ StageOf ss xs ∧
      ∃ msg q, StageFault ss msg q ∧ r = ⟨msg, path ++ q, s.1⟩ := by
  unfold stagesOf
  rw [hs]
  simp only
  have hstep : ∀ s ∈ sets, ∃ l, (match s.2 with | .list xs => stagesCheck xs path s.1 | _ => .ok []) = Except.ok l ∧
      ∀ r, r ∈ l ↔ ∃ xs ss, s.2 = .list xs ∧ List.Forall₂ StageOf ss xs ∧ ∃ msg q, StageFault ss msg q ∧ r = ⟨msg, path ++ q, s.1⟩ := by
    intro s hsm
    rcases hall s hsm with hno | ⟨xs, ss, he, hw, hf⟩
    · refine ⟨[], ?_, ?_⟩
      · split
        · rename_i xs he; exact absurd he (hno xs)
        · rfl
      · intro r
        simp only [List.not_mem_nil, false_iff]
        rintro ⟨xs, _, he, _⟩
        exact hno xs he
    · rw [he] at hw
      obtain ⟨res, hr, hm⟩ := C95_exact (path := path) (sc := s.1) hw hf
      refine ⟨res, by rw [he]; exact hr, ?_⟩
      intro r
      constructor
      · intro hrm
        obtain ⟨msg, q, hff, hrr⟩ := (hm r).1 hrm
        exact ⟨xs, ss, he, hf, msg, q, hff, hrr⟩
      · rintro ⟨xs', ss', he', hf', msg, q, hff, rfl⟩
        rw [he] at he'
        injection he' with he'
        subst he'
        obtain ⟨res', hr', hm'⟩ := C95_exact (path := path) (sc := s.1) hw hf'
        rw [hr] at hr'
        injection hr' with hr'
        subst hr'
        exact (hm' _).2 ⟨msg, q, hff, rfl⟩
  obtain ⟨res, hres⟩ := collectM_ok (f := fun s : Option Scenario × Val => match s.2 with | .list xs => stagesCheck xs path s.1 | _ => .ok [])
    (as := sets) (fun s hsm => by obtain ⟨l, hl, _⟩ := hstep s hsm; exact ⟨l, hl⟩)
  refine ⟨res, hres, fun r => ?_⟩
  rw [mem_collectM hres]
  constructor
  · rintro ⟨s, hsm, l, hl, hr⟩
    obtain ⟨l', hl', hm⟩ := hstep s hsm
    rw [hl] at hl'
    injection hl' with hl'
    subst hl'
    exact ⟨s, hsm, (hm r).1 hr⟩
  · rintro ⟨s, hsm, hh⟩
    obtain ⟨l', hl', hm⟩ := hstep s hsm
    exact ⟨s, hsm, l', hl', (hm r).2 hh⟩

/-! ### The places -/

/-- what C95 asks of the places: a finding names a place of the template -/
def C95_place_statement : Prop :=
  ∀ (scs : List Scenario) (v : Val) (path : Path) (res : List StageReport), v.WF → stagesOf scs v path = .ok res →
    ∀ r ∈ res, ∃ q w, r.path = path ++ q ∧ At v q w

theorem stage_at {ss : List StageInfo} {xs : List Val} (h : List.Forall₂ StageOf ss xs) {i : Nat} {s : StageInfo} (hs : ss[i]? = some s) :
    ∃ x, xs[i]? = some x ∧ StageOf s x := by
  induction h generalizing i with
  | nil => simp at hs
  | cons h1 h2 ih =>
    cases i with
    | zero => simp only [List.getElem?_cons_zero, Option.some.injEq] at hs; subst hs; exact ⟨_, rfl, h1⟩
    | succ i => simpa using ih (by simpa using hs)

theorem action_at {cs : List String} {as : List Val} (h : List.Forall₂ ActionOf cs as) {i : Nat} {c : String} (hs : cs[i]? = some c) :
    ∃ x, as[i]? = some x ∧ ActionOf c x := by
  induction h generalizing i with
  | nil => simp at hs
  | cons h1 h2 ih =>
    cases i with
    | zero => simp only [List.getElem?_cons_zero, Option.some.injEq] at hs; subst hs; exact ⟨_, rfl, h1⟩
    | succ i => simpa using ih (by simpa using hs)

/-- **C95** Without conditions a finding about source actions names a source action of a later stage, and one about names a name that an
earlier stage has too. -/
theorem C95_place_partial {ss : List StageInfo} {xs : List Val} {path : Path} {res : List StageReport} (hw : (Val.list xs).WF)
    (h : List.Forall₂ StageOf ss xs) (hr : stagesOf [] (.list xs) path = .ok res) : ∀ r ∈ res, ∃ q w, r.path = path ++ q ∧ At (.list xs) q w ∧
      (r.msg = .source → ActionOf "Source" w) ∧ (∀ n, r.msg = .name n → w = .str n) := by
  obtain ⟨res', hr', hm⟩ := C95_pipeline (path := path) hw h
  rw [hr] at hr'
  injection hr' with hr'
  subst hr'
  intro r hmem
  obtain ⟨msg, q, hf, rfl⟩ := (hm r).1 hmem
  cases hf with
  | few _ => exact ⟨_, _, rfl, .here, by simp, by simp⟩
  | allSource _ _ => exact ⟨_, _, rfl, .here, by simp, by simp⟩
  | noSource hs _ _ =>
    obtain ⟨x, hx, kvs, as, rfl, h1, _⟩ := stage_at h hs
    exact ⟨_, _, rfl, .idx hx (.key h1 .here), by simp, by simp⟩
  | onlySource hs _ =>
    obtain ⟨x, hx, kvs, as, rfl, h1, _⟩ := stage_at h hs
    exact ⟨_, _, rfl, .idx hx (.key h1 .here), by simp, by simp⟩
  | source _ hs hj =>
    obtain ⟨x, hx, kvs, as, rfl, _, h2, h3⟩ := stage_at h hs
    obtain ⟨a, ha, hact⟩ := action_at h3 hj
    exact ⟨_, _, rfl, .idx hx (.key h2 (.idx ha .here)), fun _ => hact, by simp⟩
  | name _ _ hs _ =>
    obtain ⟨x, hx, kvs, as, rfl, h1, _⟩ := stage_at h hs
    refine ⟨_, _, rfl, .idx hx (.key h1 .here), by simp, ?_⟩
    intro n hn
    injection hn with hn
    rw [hn]

/-- an action of the category -/
def exAct (c : String) : Val := .dict [(.str "ActionTypeId", .dict [(.str "Category", .str c)])]

/-- a stage with actions of the categories -/
def exPipeStage (n : String) (cs : List String) : Val := .dict [(.str "Name", .str n), (.str "Actions", .list (cs.map exAct))]

/-- the first stage is only there if the condition `Extra` is true -/
def exPipe : Val := .list [.dict [(.str "Fn::If", .list [.str "Extra", exPipeStage "Extra" ["Source"], .dict [(.str "Ref", .str "AWS::NoValue")]])],
  exPipeStage "Fetch" ["Source"], exPipeStage "Build" ["Build", "Source"]]

theorem exPipe_sets : objectsDeep [[(.str "Extra", some false)]] exPipe =
    .ok [(some [(.str "Extra", some false)], .list [exPipeStage "Fetch" ["Source"], exPipeStage "Build" ["Build", "Source"]])] := by
  simp [objectsDeep, deepAll, exPipe, exPipeStage, exAct, deepIn, deepItems, deepEntries, deepIf, lookupBranch, hashName, Scenario.value,
    Val.toKey?, dlookup, Val.isDict, Val.isList]

theorem exPipe_findings : stagesOf [[(.str "Extra", some false)]] exPipe [] =
    .ok [⟨.source, [.int 1, .str "Actions", .int 1], some [(.str "Extra", some false)]⟩] := by
  rw [stagesOf, exPipe_sets]
  decide +kernel

/-- **C95** The statement about the places is false: stages are counted after those that are not deployed are removed. -/
theorem C95_place_violated : ¬ C95_place_statement := by
  intro h
  obtain ⟨q, w, hq, hat⟩ := h _ exPipe _ _ (by simp [Val.WF, Val.WFList, Val.WFDict, exPipe, exPipeStage, exAct]) exPipe_findings _ List.mem_cons_self
  simp only [List.nil_append] at hq
  subst hq
  rw [exPipe] at hat
  cases hat with
  | idx hx h2 =>
    simp at hx
    subst hx
    rw [exPipeStage] at h2
    cases h2 with
    | key hk h3 =>
      simp at hk
      subst hk
      cases h3 with
      | idx hx _ => simp at hx

/-! ### Stages of other forms -/

/-- what C95 asks of the names: a name that two stages have is reported -/
def C95_names_statement : Prop :=
  ∀ (xs : List Val) (path : Path) (sc : Option Scenario) (n : String) (i j : Nat) (a b : List (Key × Val)), (Val.list xs).WF → i < j →
    xs[i]? = some (.dict a) → xs[j]? = some (.dict b) → (Key.str "Name", .str n) ∈ a → (Key.str "Name", .str n) ∈ b →
    ∃ res, stagesCheck xs path sc = .ok res ∧ (⟨.name n, path ++ [.int j, .str "Name"], sc⟩ : StageReport) ∈ res

/-- **C95** An action without `ActionTypeId` in the first stage ends the checks: only the finding about the number of the stages is left. -/
theorem C95_dropped {x : Val} {rest as : List Val} {path : Path} {sc : Option Scenario} (ha : actionsAt x = .ok (.list as))
    {a : List (Key × Val)} {before after : List Val} {cs : List Val} (hs : as = before ++ .dict a :: after) (hb : categoriesOf before = .ok cs)
    (hno : ∀ v, (Key.str "ActionTypeId", v) ∉ a) :
    stagesCheck (x :: rest) path sc = .ok (if rest = [] then [⟨.few 1, path, sc⟩] else []) := by
  have hc : ∀ (l : List Val) (ds : List Val), categoriesOf l = .ok ds → ∃ e, e.isAttribute = true ∧ categoriesOf (l ++ .dict a :: after) = .error e := by
    intro l
    induction l with
    | nil =>
      intro _ _
      have : dlookup (Key.str "ActionTypeId") a = none := dlookup_none_iff.2 (by simpa using hno)
      refine ⟨_, ?_, by simp only [List.nil_append, categoriesOf, categoryOf, Val.getD, this]; rfl⟩
      rfl
    | cons y l ih =>
      intro ds hd
      rw [categoriesOf] at hd
      cases hy : categoryOf y with
      | error e => rw [hy] at hd; cases hd
      | ok c =>
        rw [hy] at hd
        cases hl : categoriesOf l with
        | error e => rw [hl] at hd; cases hd
        | ok cs' =>
          obtain ⟨e, he, h⟩ := ih _ hl
          exact ⟨e, he, by rw [List.cons_append, categoriesOf, hy]; simp only [h]⟩
  obtain ⟨e, he, h⟩ := hc _ _ hb
  have hf : stageFirst (x :: rest) path sc = .error e := by simp only [stageFirst, ha, iterOf, hs, h]
  simp only [stagesCheck, stageCount, extendStages, hf, he, if_true, List.append_nil]
  cases rest <;> simp

/-- **C95** So does an action of the first stage that is not an object: a text, a list, a number. -/
theorem C95_dropped_odd {x : Val} {rest as : List Val} {path : Path} {sc : Option Scenario} (ha : actionsAt x = .ok (.list as))
    {y : Val} {before after : List Val} {cs : List Val} (hs : as = before ++ y :: after) (hb : categoriesOf before = .ok cs)
    (hy : ∀ kvs, y ≠ .dict kvs) :
    stagesCheck (x :: rest) path sc = .ok (if rest = [] then [⟨.few 1, path, sc⟩] else []) := by
  have hyc : ∃ e, e.isAttribute = true ∧ categoryOf y = .error e := by
    cases y with
    | dict kvs => exact absurd rfl (hy kvs)
    | _ => exact ⟨_, rfl, rfl⟩
  have hc : ∀ (l : List Val) (ds : List Val), categoriesOf l = .ok ds → ∃ e, e.isAttribute = true ∧ categoriesOf (l ++ y :: after) = .error e := by
    intro l
    induction l with
    | nil =>
      intro _ _
      obtain ⟨e, he, h⟩ := hyc
      exact ⟨e, he, by simp only [List.nil_append, categoriesOf, h]⟩
    | cons z l ih =>
      intro ds hd
      rw [categoriesOf] at hd
      cases hz : categoryOf z with
      | error e => rw [hz] at hd; cases hd
      | ok c =>
        rw [hz] at hd
        cases hl : categoriesOf l with
        | error e => rw [hl] at hd; cases hd
        | ok cs' =>
          obtain ⟨e, he, h⟩ := ih _ hl
          exact ⟨e, he, by rw [List.cons_append, categoriesOf, hz]; simp only [h]⟩
  obtain ⟨e, he, h⟩ := hc _ _ hb
  have hf : stageFirst (x :: rest) path sc = .error e := by simp only [stageFirst, ha, iterOf, hs, h]
  simp only [stagesCheck, stageCount, extendStages, hf, he, if_true, List.append_nil]
  cases rest <;> simp

example : stagesCheck [.dict [(.str "Actions", .list [.str "Source"])]] [] none = .ok [⟨.few 1, [], none⟩] :=
  C95_dropped_odd (as := [.str "Source"]) (before := []) (after := []) (cs := []) rfl rfl rfl (by simp)

/-- **C95** The statement about the names is false. -/
theorem C95_names_violated : ¬ C95_names_statement := by
  intro h
  obtain ⟨res, hr, hm⟩ := h [.dict [(.str "Name", .str "A"), (.str "Actions", .list [.dict []])], exPipeStage "A" ["Build"]] [] none "A" 0 1 _ _
    (by simp [Val.WF, Val.WFList, Val.WFDict, exPipeStage, exAct]) (by omega) rfl rfl List.mem_cons_self List.mem_cons_self
  rw [C95_dropped (as := [.dict []]) (before := []) (after := []) (a := []) (cs := []) rfl rfl rfl (by simp)] at hr
  injection hr with hr
  subst hr
  cases hm

/-- **C95** A category of the first stage given by an object, such as a reference to a parameter, raises, and so does a first stage without
actions or with a null for them. -/
theorem C95_raises {x : Val} {rest : List Val} {path : Path} {sc : Option Scenario} :
    ((∃ as cs, actionsAt x = .ok (.list as) ∧ categoriesOf as = .ok cs ∧ ∃ o, Val.dict o ∈ cs) →
      stagesCheck (x :: rest) path sc = .error (.typeError "unhashable type")) ∧
    ((∃ kvs, x = .dict kvs ∧ ∀ v, (Key.str "Actions", v) ∉ kvs) → stagesCheck (x :: rest) path sc = .error (.keyError "Actions")) ∧
    (actionsAt x = .ok .none → ∃ e, stagesCheck (x :: rest) path sc = .error e) := by
  refine ⟨?_, ?_, ?_⟩
  · rintro ⟨as, cs, ha, hc, o, ho⟩
    have hall : cs.all canHash = false := by
      rw [List.all_eq_false]
      exact ⟨_, ho, by simp [canHash]⟩
    have hf : stageFirst (x :: rest) path sc = .error (.typeError "unhashable type") := by simp [stageFirst, ha, iterOf, hc, hall]
    simp [stagesCheck, stageCount, extendStages, hf, PyErr.isAttribute]
  · rintro ⟨kvs, rfl, hno⟩
    have hf : stageFirst (.dict kvs :: rest) path sc = .error (.keyError "Actions") := by
      simp [stageFirst, actionsAt, dlookup_none_iff.2 (by simpa using hno)]
    simp [stagesCheck, stageCount, extendStages, hf, PyErr.isAttribute]
  · intro ha
    refine ⟨.typeError "object is not iterable", ?_⟩
    have hf : stageFirst (x :: rest) path sc = .error (.typeError "object is not iterable") := by simp only [stageFirst, ha, iterOf]
    simp only [stagesCheck, stageCount, extendStages, hf, PyErr.isAttribute]
    rfl

/-! ### Examples -/

theorem exAct_of (c : String) : ActionOf c (exAct c) := ⟨_, _, rfl, List.mem_cons_self, List.mem_cons_self⟩

theorem exActs_of : ∀ cs : List String, List.Forall₂ ActionOf cs (cs.map exAct)
  | [] => .nil
  | c :: cs => .cons (exAct_of c) (exActs_of cs)

theorem exStage_of (n : String) (cs : List String) : StageOf ⟨n, cs⟩ (exPipeStage n cs) :=
  ⟨_, _, rfl, List.mem_cons_self, List.mem_cons_of_mem _ List.mem_cons_self, exActs_of cs⟩

/-- a good pipeline has no findings -/
example : stagesCheck [exPipeStage "Fetch" ["Source", "Source"], exPipeStage "Build" ["Build"]] [] none = .ok [] :=
  (C95_silent_iff (by simp [Val.WF, Val.WFList, Val.WFDict, exPipeStage, exAct]) (.cons (exStage_of _ _) (.cons (exStage_of _ _) .nil))).2
    ⟨by simp, by simp, by rintro (_ | _ | i) s h1 h2 <;> simp_all <;> subst h2 <;> simp, by simp, by simp⟩

/-- all the findings at once -/
example : stagesCheck [exPipeStage "A" ["Build", "Source"], exPipeStage "A" ["Source"]] [] none = .ok
    [⟨.onlySource, [.int 0, .str "Name"], none⟩, ⟨.source, [.int 1, .str "Actions", .int 0], none⟩,
     ⟨.name "A", [.int 1, .str "Name"], none⟩] := by decide +kernel

/-- a first stage without actions is said to need only source actions, and a pipeline without actions to need another action -/
example : stagesCheck [exPipeStage "A" []] [] none = .ok
    [⟨.few 1, [], none⟩, ⟨.onlySource, [.int 0, .str "Name"], none⟩, ⟨.allSource, [], none⟩] := by decide +kernel

/-- a category taken from a parameter raises -/
example : stagesCheck [.dict [(.str "Actions", .list [.dict [(.str "ActionTypeId",
    .dict [(.str "Category", .dict [(.str "Ref", .str "P")])])]])]] [] none = .error (.typeError "unhashable type") :=
  C95_raises.1 ⟨_, _, rfl, rfl, _, List.mem_cons_self⟩

/-- a pipeline with conditions -/
example : ∃ res, stagesOf [[(.str "Extra", some false)]] exPipe [] = .ok res ∧ ∀ r, r ∈ res ↔
    ∃ s ∈ [(some [(Key.str "Extra", some false)], Val.list [exPipeStage "Fetch" ["Source"], exPipeStage "Build" ["Build", "Source"]])],
      ∃ xs ss, s.2 = .list xs ∧ List.Forall₂ StageOf ss xs ∧ ∃ msg q, StageFault ss msg q ∧ r = ⟨msg, [] ++ q, s.1⟩ :=
  C95_scenarios exPipe_sets (by
    intro s hs
    simp only [List.mem_singleton] at hs
    subst hs
    exact .inr ⟨_, _, rfl, by simp [Val.WF, Val.WFList, Val.WFDict, exPipeStage, exAct], .cons (exStage_of _ _) (.cons (exStage_of _ _) .nil)⟩)

end CfnLint
