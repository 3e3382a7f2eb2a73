import Verif.Model.Limits
import Verif.Spec.Limits
import Verif.Lemmas.Dict
import Verif.Lemmas.CondMain
/-
C45: limit checks have exact boundaries. C48: limits in bytes.
-/
namespace CfnLint
open Spec

/-! ### Boundaries -/

theorem exceeds_iff {l : Nat} {s : Int} : exceeds l s = true ↔ Over l s := by
  simp [exceeds, Over]

theorem aboveThreshold_of {l : Nat} {s : Int}
    (h3 : roundBits (8106479329266893 * l) < 2 ^ 53 * (9 * l / 10 + 1))
    (h4 : 2 ^ 53 * (9 * l / 10) ≤ roundBits (8106479329266893 * l)) :
    aboveThreshold l s = true ↔ 9 * (l : Int) < 10 * s := by
  unfold aboveThreshold
  generalize roundBits (8106479329266893 * l) = r at *
  rw [decide_eq_true_iff]
  constructor
  · intro h
    have : ((2 ^ 53 * (9 * l / 10) : Nat) : Int) ≤ r := by exact_mod_cast h4
    omega
  · intro h
    have : (r : Int) < (2 ^ 53 * (9 * l / 10 + 1) : Nat) := by exact_mod_cast h3
    omega

/-- every limit the rules use -/
def usedLimits : List Nat := [200, 255, 500, 1024, 4096, 1000000]

/-- the rounding of the float product never changes the comparison, for the limits in use -/
theorem approaching_iff {l : Nat} {s : Int} (hl : l ∈ usedLimits) : approaching l s = true ↔ Near l s := by
  have key : aboveThreshold l s = true ↔ 9 * (l : Int) < 10 * s := by
    simp only [usedLimits, List.mem_cons, List.not_mem_nil, or_false] at hl
    rcases hl with h | h | h | h | h | h <;> subst h <;> exact aboveThreshold_of (by decide) (by decide)
  simp only [approaching, Bool.and_eq_true, decide_eq_true_iff, Near, key]

/-- never both, whatever the size -/
theorem over_near_disjoint {l s : Int} : ¬ (Over l s ∧ Near l s) := by
  unfold Over Near; omega

theorem exceeds_approaching {l : Nat} {s : Int} (h1 : exceeds l s = true) (h2 : approaching l s = true) : False := by
  simp only [exceeds, approaching, Bool.and_eq_true, decide_eq_true_iff] at h1 h2
  omega

/-! ### Loops -/

theorem gatherAll_ok {α : Type} {f : α → PyM (List LimitMatch)} {g : α → List LimitMatch} : ∀ {xs : List α},
    (∀ x ∈ xs, f x = .ok (g x)) → gatherAll f xs = .ok (xs.flatMap g) := by
  intro xs
  induction xs with
  | nil => intro _; rfl
  | cons x xs ih =>
    intro h
    rw [gatherAll, h x List.mem_cons_self]
    dsimp only
    rw [ih (fun y hy => h y (List.mem_cons_of_mem _ hy))]
    rfl

theorem gatherAll_mem {α : Type} {f : α → PyM (List LimitMatch)} {m : LimitMatch} : ∀ {xs : List α} {ms},
    gatherAll f xs = .ok ms → m ∈ ms → ∃ x ∈ xs, ∃ r, f x = .ok r ∧ m ∈ r := by
  intro xs
  induction xs with
  | nil => intro ms h hm; cases h; cases hm
  | cons x xs ih =>
    intro ms h hm
    rw [gatherAll] at h
    split at h
    · cases h
    · rename_i r hr
      split at h
      · cases h
      · rename_i r2 hr2
        cases h
        rcases List.mem_append.1 hm with hm | hm
        · exact ⟨x, List.mem_cons_self, r, hr, hm⟩
        · obtain ⟨y, hy, h⟩ := ih hr2 hm
          exact ⟨y, List.mem_cons_of_mem _ hy, h⟩

/-- a rule reports something at a path -/
def Reports (r : PyM (List LimitMatch)) (path : List Val) : Prop :=
  ∃ ms, r = .ok ms ∧ ∃ m ∈ ms, m.path = path

/-- the section of a template as a list of named entries -/
theorem named_section {t : Val} {sec : String} (h : Named t sec) :
    ∃ d, t.getD sec (.dict []) = .ok (.dict d) ∧ (∀ kv ∈ d, ∃ s, kv.1 = Key.str s) ∧
      ∀ p, p ≠ [] → look t (.str sec :: p) = look (.dict d) p := by
  obtain ⟨⟨d, rfl⟩, h⟩ := h
  simp only [Val.getD]
  cases hd : dlookup (Key.str sec) d with
  | none =>
    refine ⟨[], rfl, by simp, ?_⟩
    intro p hp
    cases p with
    | nil => exact absurd rfl hp
    | cons k p => simp [look, hd, dlookup]
  | some v =>
    obtain ⟨e, rfl, he⟩ := h v (by simp [look, hd])
    exact ⟨e, rfl, he, fun p _ => by simp [look, hd]⟩

theorem hasEntry_iff {t : Val} {sec : String} {d : List (Key × Val)} {k : Key}
    (h : ∀ p, p ≠ [] → look t (.str sec :: p) = look (.dict d) p) :
    HasEntry t sec k ↔ k ∈ d.map Prod.fst := by
  unfold HasEntry
  rw [h [k] (by simp)]
  simp only [look]
  cases hk : dlookup k d with
  | none => simpa using dlookup_none_iff.1 hk
  | some v =>
    simp only [Option.some.injEq, exists_eq', true_iff]
    exact List.mem_map.2 ⟨_, dlookup_mem hk, rfl⟩

/-! ### Names -/

theorem nameOver_str {s : Sect} {n : String} : nameOver s (.str n) =
    .ok (if exceeds (nameMax s) n.toList.length then
      [⟨[.str s.key, .str n], limitText ("The length of " ++ s.single ++ " name") "exceeds" "" n.toList.length
        (nameMax s)⟩] else []) := rfl

theorem nameNear_str {s : Sect} {n : String} : nameNear s (.str n) =
    .ok (if approaching (nameMax s) n.toList.length then
      [⟨[.str s.key, .str n], limitText ("The length of " ++ s.single ++ " name") "is approaching" "" n.toList.length
        (nameMax s)⟩] else []) := rfl

/-- a rule which looks at names one by one: what it reports -/
theorem names_reports {d : List (Key × Val)} {f : Val → PyM (List LimitMatch)} {test : Int → Bool} {sec : String}
    {msg : Nat → String} (hd : ∀ kv ∈ d, ∃ s, kv.1 = Key.str s)
    (hf : ∀ n : String, f (.str n) = .ok (if test n.toList.length then [⟨[.str sec, .str n], msg n.toList.length⟩] else [])) :
    ∃ ms, gatherAll f (d.map (fun kv => kv.1.toVal)) = .ok ms ∧
      (∀ path, (∃ m ∈ ms, m.path = path) ↔
        ∃ n : String, Key.str n ∈ d.map Prod.fst ∧ test n.toList.length = true ∧ path = [.str sec, .str n]) ∧
      ((d.map Prod.fst).Nodup → (ms.map LimitMatch.path).Nodup) := by
  induction d with
  | nil => exact ⟨[], rfl, by simp, by simp⟩
  | cons kv d ih =>
    obtain ⟨ms, h1, h2, h3⟩ := ih (fun kv h => hd kv (List.mem_cons_of_mem _ h))
    obtain ⟨s, hs⟩ := hd kv List.mem_cons_self
    have hstep : gatherAll f ((kv :: d).map (fun kv => kv.1.toVal)) =
        .ok ((if test s.toList.length then [⟨[.str sec, .str s], msg s.toList.length⟩] else []) ++ ms) := by
      have hv : kv.1.toVal = .str s := by rw [hs]; rfl
      rw [List.map_cons, gatherAll, hv, hf]
      dsimp only
      rw [h1]
    refine ⟨_, hstep, ?_, ?_⟩
    · intro path
      constructor
      · rintro ⟨m, hm, hp⟩
        rcases List.mem_append.1 hm with hm | hm
        · by_cases ht : test s.toList.length = true
          · rw [if_pos ht] at hm
            rw [List.mem_singleton] at hm
            subst hm
            exact ⟨s, by simp [hs], ht, hp.symm⟩
          · rw [if_neg ht] at hm; cases hm
        · obtain ⟨n, hn, h⟩ := (h2 path).1 ⟨m, hm, hp⟩
          exact ⟨n, by rw [List.map_cons]; exact List.mem_cons_of_mem _ hn, h⟩
      · rintro ⟨n, hn, ht, hp⟩
        rw [List.map_cons, List.mem_cons] at hn
        rcases hn with hn | hn
        · rw [hs] at hn
          cases hn
          exact ⟨_, List.mem_append_left _ (by rw [if_pos ht]; exact List.mem_singleton_self _), hp.symm⟩
        · obtain ⟨m, hm, h⟩ := (h2 path).2 ⟨n, hn, ht, hp⟩
          exact ⟨m, List.mem_append_right _ hm, h⟩
    · intro hnd
      rw [List.map_cons, List.nodup_cons] at hnd
      by_cases ht : test s.toList.length = true
      · rw [if_pos ht]
        rw [List.map_append, List.map_cons, List.map_nil, List.singleton_append, List.nodup_cons]
        refine ⟨?_, h3 hnd.2⟩
        intro hm
        obtain ⟨m, hm, hp⟩ := List.mem_map.1 hm
        obtain ⟨n, hn, _, h⟩ := (h2 _).1 ⟨m, hm, hp⟩
        cases h
        exact hnd.1 (hs ▸ hn)
      · rw [if_neg ht]; exact h3 hnd.2

theorem nameLimit_named {t : Val} {s : Sect} {d : List (Key × Val)} (h : t.getD s.key (.dict []) = .ok (.dict d)) :
    nameLimit t s = gatherAll (nameOver s) (d.map (fun kv => kv.1.toVal)) := by
  rw [nameLimit, h]; rfl

theorem approachingNameLimit_named {t : Val} {s : Sect} {d : List (Key × Val)}
    (h : t.getD s.key (.dict []) = .ok (.dict d)) :
    approachingNameLimit t s = gatherAll (nameNear s) (d.map (fun kv => kv.1.toVal)) := by
  rw [approachingNameLimit, h]; rfl

theorem nameMax_used (s : Sect) : nameMax s ∈ usedLimits := by cases s <;> decide
theorem numberMax_used (s : Sect) : numberMax s ∈ usedLimits := by cases s <;> decide
theorem nameMax_eq (s : Sect) : nameMax s = nameLength := by cases s <;> rfl

theorem section_nodup {t : Val} {sec : String} {d : List (Key × Val)} (hw : t.WF)
    (hd : t.getD sec (.dict []) = .ok (.dict d)) : (d.map Prod.fst).Nodup := by
  cases t with
  | dict td =>
    simp only [Val.getD] at hd
    cases hx : dlookup (Key.str sec) td with
    | none => rw [hx] at hd; cases hd; exact List.nodup_nil
    | some v =>
      rw [hx] at hd
      cases hd
      exact (wfDict_mem_cond hw.2 (dlookup_mem hx)).1
  | none => cases hd
  | bool => cases hd
  | int => cases hd
  | flt => cases hd
  | str => cases hd
  | list => cases hd

theorem reports_ok {ms : List LimitMatch} {path : List Val} :
    Reports (.ok ms) path ↔ ∃ m ∈ ms, m.path = path :=
  ⟨fun ⟨ms', e, h⟩ => by cases e; exact h, fun h => ⟨ms, rfl, h⟩⟩

/-- C45, names, error side. When the section is an object named by texts, the rule reports exactly the names
longer than 255 characters, each once. -/
theorem C45_name_limit_partial {t : Val} {s : Sect} (h : Named t s.key) :
    (∀ path, Reports (nameLimit t s) path ↔
      ∃ n : String, HasEntry t s.key (.str n) ∧ Over nameLength n.toList.length ∧ path = [.str s.key, .str n]) ∧
    ∃ ms, nameLimit t s = .ok ms ∧ (t.WF → (ms.map LimitMatch.path).Nodup) := by
  obtain ⟨d, hd, hk, hl⟩ := named_section h
  obtain ⟨ms, h1, h2, h3⟩ := names_reports (f := nameOver s) (test := exceeds (nameMax s)) (sec := s.key)
    (msg := fun n => limitText ("The length of " ++ s.single ++ " name") "exceeds" "" n (nameMax s)) hk
    (fun n => nameOver_str)
  rw [← nameLimit_named hd] at h1
  refine ⟨fun path => ?_, ms, h1, fun hw => h3 (section_nodup hw hd)⟩
  rw [h1, reports_ok, h2]
  simp only [hasEntry_iff hl, exceeds_iff, nameMax_eq]

/-- C45, names, notice side. -/
theorem C45_name_notice_partial {t : Val} {s : Sect} (h : Named t s.key) :
    (∀ path, Reports (approachingNameLimit t s) path ↔
      ∃ n : String, HasEntry t s.key (.str n) ∧ Near nameLength n.toList.length ∧ path = [.str s.key, .str n]) ∧
    ∃ ms, approachingNameLimit t s = .ok ms ∧ (t.WF → (ms.map LimitMatch.path).Nodup) := by
  obtain ⟨d, hd, hk, hl⟩ := named_section h
  obtain ⟨ms, h1, h2, h3⟩ := names_reports (f := nameNear s) (test := approaching (nameMax s)) (sec := s.key)
    (msg := fun n => limitText ("The length of " ++ s.single ++ " name") "is approaching" "" n (nameMax s)) hk
    (fun n => nameNear_str)
  rw [← approachingNameLimit_named hd] at h1
  refine ⟨fun path => ?_, ms, h1, fun hw => h3 (section_nodup hw hd)⟩
  rw [h1, reports_ok, h2]
  have hn : ∀ n : String, approaching (nameMax s) n.toList.length = true ↔ Near nameLength n.toList.length := by
    intro n
    rw [approaching_iff (nameMax_used s), nameMax_eq]
  simp only [hasEntry_iff hl, hn]

/-! ### Counts -/

theorem isTyped_iff {kv : Key × Val} : isTyped kv = true ↔ ∃ ty, look kv.2 [.str "Type"] = some ty ∧ ty ≠ .none := by
  obtain ⟨k, v⟩ := kv
  unfold isTyped
  cases v with
  | dict props =>
    simp only [look, bne_iff_ne]
    cases dlookup (Key.str "Type") props with
    | none => simp
    | some x => simp
  | _ => simp [look]

/-- the entries that count -/
theorem count_section {t : Val} {s : Sect} (hw : t.WF) (h : Named t s.key) :
    ∃ names : List Key, names.Nodup ∧ (∀ k, k ∈ names ↔ Counts t s.key k) ∧
      sectionCount t s = .ok names.length := by
  obtain ⟨d, hd, hk, hl⟩ := named_section h
  have hn := section_nodup hw hd
  by_cases hs : s = .resources
  · subst hs
    refine ⟨(d.filter isTyped).map Prod.fst, hn.sublist (List.Sublist.map _ List.filter_sublist), ?_, ?_⟩
    · intro k
      rw [Counts, if_pos (show Sect.resources.key = "Resources" from rfl)]
      have := hl [k, .str "Type"] (by simp)
      change look t [.str "Resources", k, .str "Type"] = _ at this
      change _ ↔ ∃ ty, look t [.str "Resources", k, .str "Type"] = some ty ∧ _
      rw [this]
      constructor
      · intro hm
        obtain ⟨⟨k', v⟩, hm2, rfl⟩ := List.mem_map.1 hm
        obtain ⟨hm3, ht⟩ := List.mem_filter.1 hm2
        obtain ⟨ty, h1, h2⟩ := isTyped_iff.1 ht
        refine ⟨ty, ?_, h2⟩
        rw [look, dlookup_of_mem hn hm3]
        exact h1
      · rintro ⟨ty, h1, h2⟩
        rw [look] at h1
        cases hx : dlookup k d with
        | none => rw [hx] at h1; cases h1
        | some v =>
          rw [hx] at h1
          exact List.mem_map.2 ⟨(k, v), List.mem_filter.2 ⟨dlookup_mem hx, isTyped_iff.2 ⟨ty, h1, h2⟩⟩, rfl⟩
    · rw [sectionCount, if_pos rfl, getResources]
      change t.getD "Resources" (.dict []) = _ at hd
      rw [hd]
      simp
  · refine ⟨d.map Prod.fst, hn, ?_, ?_⟩
    · intro k
      have hne : s.key ≠ "Resources" := by cases s <;> first | exact absurd rfl hs | decide
      rw [Counts, if_neg hne, hasEntry_iff hl]
    · rw [sectionCount, if_neg hs, hd]
      simp [pyLen]

theorem numberMax_documented (s : Sect) : dlookup s.key countLimit = some (numberMax s) := by cases s <;> decide

/-- C45, counts. For a section named by texts, the error is reported iff the number of counted entries is
above the documented limit, the notice iff it is above nine tenths and at most the limit; at the section. -/
theorem C45_number_partial {t : Val} {s : Sect} (hw : t.WF) (h : Named t s.key) :
    ∃ names : List Key, names.Nodup ∧ (∀ k, k ∈ names ↔ Counts t s.key k) ∧
      ∃ limit, dlookup s.key countLimit = some limit ∧
        (∀ path, Reports (numberLimit t s) path ↔ Over limit names.length ∧ path = [.str s.key]) ∧
        (∀ path, Reports (approachingNumberLimit t s) path ↔ Near limit names.length ∧ path = [.str s.key]) := by
  obtain ⟨names, h1, h2, h3⟩ := count_section hw h
  refine ⟨names, h1, h2, _, numberMax_documented s, fun path => ?_, fun path => ?_⟩
  · rw [numberLimit, h3]
    dsimp only
    rw [reports_ok, ← exceeds_iff]
    by_cases he : exceeds (numberMax s) names.length = true
    · rw [if_pos he]; simp [he, eq_comm]
    · rw [if_neg he]; simp [he]
  · rw [approachingNumberLimit, h3]
    dsimp only
    rw [reports_ok, ← approaching_iff (numberMax_used s)]
    by_cases he : approaching (numberMax s) names.length = true
    · rw [if_pos he]; simp [he, eq_comm]
    · rw [if_neg he]; simp [he]

/-! ### Never both -/

theorem nameOver_mem {s : Sect} {n : Val} {r : List LimitMatch} {m : LimitMatch} (h : nameOver s n = .ok r) (hm : m ∈ r) :
    m.path = [.str s.key, n] ∧ ∃ k, pyLen n = .ok k ∧ exceeds (nameMax s) k = true := by
  unfold nameOver at h
  split at h
  · cases h
  · rename_i k hk
    cases h
    by_cases he : exceeds (nameMax s) k = true
    · rw [if_pos he, List.mem_singleton] at hm
      subst hm
      exact ⟨rfl, k, hk, he⟩
    · rw [if_neg he] at hm; cases hm

theorem nameNear_mem {s : Sect} {n : Val} {r : List LimitMatch} {m : LimitMatch} (h : nameNear s n = .ok r) (hm : m ∈ r) :
    m.path = [.str s.key, n] ∧ ∃ k, pyLen n = .ok k ∧ approaching (nameMax s) k = true := by
  unfold nameNear at h
  split at h
  · cases h
  · rename_i k hk
    cases h
    by_cases he : approaching (nameMax s) k = true
    · rw [if_pos he, List.mem_singleton] at hm
      subst hm
      exact ⟨rfl, k, hk, he⟩
    · rw [if_neg he] at hm; cases hm

/-- C45, never both: whatever the template, no name and no section is reported by both rules. -/
theorem C45_never_both (t : Val) (s : Sect) (path : List Val) :
    ¬ (Reports (nameLimit t s) path ∧ Reports (approachingNameLimit t s) path) ∧
    ¬ (Reports (numberLimit t s) path ∧ Reports (approachingNumberLimit t s) path) := by
  constructor
  · rintro ⟨⟨ms, h1, m, hm, hp⟩, ⟨ms', h1', m', hm', hp'⟩⟩
    unfold nameLimit at h1
    unfold approachingNameLimit at h1'
    split at h1
    · cases h1
    · rename_i v hv
      rw [hv] at h1'
      dsimp only at h1'
      split at h1
      · cases h1
      · rename_i names hn
        rw [hn] at h1'
        obtain ⟨x, _, r, hr, hmr⟩ := gatherAll_mem h1 hm
        obtain ⟨y, _, r', hr', hmr'⟩ := gatherAll_mem h1' hm'
        obtain ⟨e1, k, hk, ho⟩ := nameOver_mem hr hmr
        obtain ⟨e2, k', hk', ho'⟩ := nameNear_mem hr' hmr'
        rw [← hp', e1, e2] at hp
        cases hp
        rw [hk] at hk'
        cases hk'
        exact exceeds_approaching ho ho'
  · rintro ⟨⟨ms, h1, m, hm, hp⟩, ⟨ms', h1', m', hm', hp'⟩⟩
    unfold numberLimit at h1
    unfold approachingNumberLimit at h1'
    split at h1
    · cases h1
    · rename_i n hn
      rw [hn] at h1'
      cases h1
      cases h1'
      by_cases ho : exceeds (numberMax s) n = true
      · by_cases ho' : approaching (numberMax s) n = true
        · exact exceeds_approaching ho ho'
        · rw [if_neg ho'] at hm'; cases hm'
      · rw [if_neg ho] at hm; cases hm

/-! ### The statement without restriction -/

/-- C45 in full for names: for every template object, reported iff longer than the limit -/
def C45_statement : Prop :=
  ∀ (d : List (Key × Val)) (s : Sect), (Val.dict d).WF → ∀ n : String,
    Reports (nameLimit (.dict d) s) [.str s.key, .str n] ↔
      HasEntry (.dict d) s.key (.str n) ∧ Over nameLength n.toList.length

theorem replicate_text_length (n : Nat) (c : Char) : (String.ofList (List.replicate n c)).toList.length = n := by
  simp

/-- a name of 256 characters -/
def overlongName : String := String.ofList (List.replicate 256 'a')

/-- Fails: a numeric key next to the long name makes `len` raise, and nothing is reported. -/
theorem C45_numeric_key_violated : ¬ C45_statement := by
  intro h
  have hl : overlongName.toList.length = 256 := replicate_text_length 256 'a'
  have := (h [(.str "Resources", .dict [(.int 1, .dict []), (.str overlongName, .dict [])])] .resources
    (by simp [Val.WF, Val.WFDict]) overlongName).2 ⟨⟨.dict [], by simp [look, dlookup, Sect.key]⟩, by
      rw [hl]; decide⟩
  obtain ⟨ms, h1, _⟩ := this
  simp only [nameLimit, Val.getD, Sect.key, dlookup, if_true, Option.getD_some, iterOf, List.map_cons, Key.toVal,
    gatherAll, nameOver, pyLen] at h1
  cases h1

/-! ### Other sizes -/

theorem report_iff {t : Test} {path p : List Val} {what unit : String} {l : Nat} {s : Int} :
    (∃ m ∈ t.report path what unit l s, m.path = p) ↔ t.test l s = true ∧ p = path := by
  unfold Test.report
  by_cases h : t.test l s = true
  · rw [if_pos h]; simp [h, eq_comm]
  · rw [if_neg h]; simp [h]

/-- what a test stands for -/
def Test.Means (t : Test) (P : Int → Int → Prop) : Prop := ∀ l ∈ usedLimits, ∀ s, t.test l s = true ↔ P l s

theorem overTest_means : overTest.Means Over := fun _ _ _ => exceeds_iff
theorem nearTest_means : nearTest.Means Near := fun _ hl _ => approaching_iff hl

/-- C45, template size: reported iff the size of the file is above (approaching) one million bytes. -/
theorem C45_template_size (size : Option Nat) (path : List Val) :
    (Reports (.ok (templateSizeLimit overTest size)) path ↔
      ∃ n, size = some n ∧ Over 1000000 n ∧ path = [.str "Template"]) ∧
    (Reports (.ok (templateSizeLimit nearTest size)) path ↔
      ∃ n, size = some n ∧ Near 1000000 n ∧ path = [.str "Template"]) := by
  have key : ∀ (t : Test) (P : Int → Int → Prop), t.Means P →
      (Reports (.ok (templateSizeLimit t size)) path ↔ ∃ n, size = some n ∧ P 1000000 n ∧ path = [.str "Template"]) := by
    intro t P ht
    rw [reports_ok]
    cases size with
    | none => simp [templateSizeLimit]
    | some n =>
      rw [templateSizeLimit, report_iff, ht bodyMax (by decide)]
      simp [bodyMax]
  exact ⟨key _ _ overTest_means, key _ _ nearTest_means⟩

/-- the length of a template description -/
theorem description_reports {t : Test} {P : Int → Int → Prop} (ht : t.Means P) {d : List (Key × Val)} {s : String}
    (hs : look (.dict d) [.str "Description"] = some (.str s)) (path : List Val) :
    Reports (templateDescriptionLimit t (.dict d)) path ↔ P 1024 s.toList.length ∧ path = [.str "Description"] := by
  simp only [look] at hs
  split at hs
  · rename_i x hx
    cases hs
    rw [templateDescriptionLimit, Val.getD, hx]
    simp only [Option.getD_some, pyLen]
    rw [reports_ok, report_iff, ht descriptionMax (by decide)]
    rfl
  · cases hs

/-- C45, template description: measured in characters. -/
theorem C45_template_description {d : List (Key × Val)} {s : String}
    (hs : look (.dict d) [.str "Description"] = some (.str s)) (path : List Val) :
    (Reports (templateDescriptionLimit overTest (.dict d)) path ↔
      Over 1024 s.toList.length ∧ path = [.str "Description"]) ∧
    (Reports (templateDescriptionLimit nearTest (.dict d)) path ↔
      Near 1024 s.toList.length ∧ path = [.str "Description"]) :=
  ⟨description_reports overTest_means hs path, description_reports nearTest_means hs path⟩

example : look (.dict [(.str "Description", .str "x")]) [.str "Description"] = some (.str "x") := by decide

/-- a section of the template, when present, is an object and its entries are as `P` says -/
def Entries (t : Val) (sec : String) (P : Val → Prop) : Prop :=
  (∃ d, t = .dict d) ∧ ∀ v, look t [.str sec] = some v → ∃ d, v = .dict d ∧ ∀ kv ∈ d, P kv.2

/-- the entries of a section -/
theorem entries_section {t : Val} {sec : String} {P : Val → Prop} (hw : t.WF) (h : Entries t sec P) :
    ∃ d, t.getD sec (.dict []) = .ok (.dict d) ∧ (∀ kv ∈ d, P kv.2 ∧ kv.2.WF) ∧ (d.map Prod.fst).Nodup ∧
      ∀ k p x, look t (.str sec :: k :: p) = some x ↔ ∃ v, (k, v) ∈ d ∧ look v p = some x := by
  obtain ⟨⟨td, rfl⟩, h⟩ := h
  have hx := @section_nodup (.dict td) sec
  simp only [Val.getD] at hx ⊢
  cases hd : dlookup (Key.str sec) td with
  | none =>
    refine ⟨[], rfl, by simp, List.nodup_nil, ?_⟩
    intro k p x
    simp [look, hd]
  | some v =>
    obtain ⟨e, rfl, he⟩ := h v (by simp [look, hd])
    have hn := hx (d := e) hw (by rw [hd]; rfl)
    have hwe : (Val.dict e).WF := wfDict_mem_cond hw.2 (dlookup_mem hd)
    refine ⟨e, rfl, fun kv hkv => ⟨he kv hkv, wfDict_mem_cond hwe.2 hkv⟩, hn, ?_⟩
    intro k p x
    simp only [look, hd]
    cases hk : dlookup k e with
    | none =>
      refine ⟨fun h => (by cases h), ?_⟩
      rintro ⟨v, hv, _⟩
      exact absurd (List.mem_map.2 ⟨_, hv, rfl⟩) (dlookup_none_iff.1 hk)
    | some v =>
      refine ⟨fun h => ⟨v, dlookup_mem hk, h⟩, ?_⟩
      rintro ⟨v', hv, hl⟩
      rw [dlookup_of_mem hn hv] at hk
      cases hk
      exact hl

theorem flatMap_reports {α : Type} {g : α → List LimitMatch} {xs : List α} {path : List Val} :
    (∃ m ∈ xs.flatMap g, m.path = path) ↔ ∃ x ∈ xs, ∃ m ∈ g x, m.path = path := by
  simp only [List.mem_flatMap]
  constructor
  · rintro ⟨m, ⟨x, hx, hm⟩, hp⟩; exact ⟨x, hx, m, hm, hp⟩
  · rintro ⟨x, hx, m, hm, hp⟩; exact ⟨m, ⟨x, hx, hm⟩, hp⟩

/-- an object of objects: what each mapping should be -/
def IsMapping (v : Val) : Prop := ∃ d, v = .dict d ∧ ∀ kv ∈ d, ∃ e, kv.2 = .dict e

theorem look_one {v x : Val} {k : Key} (hw : v.WF) :
    look v [k] = some x ↔ ∃ d, v = .dict d ∧ (k, x) ∈ d := by
  cases v with
  | dict d =>
    simp only [look]
    cases hk : dlookup k d with
    | none =>
      refine ⟨fun h => (by cases h), ?_⟩
      rintro ⟨_, e, hm⟩
      cases e
      exact absurd (List.mem_map.2 ⟨_, hm, rfl⟩) (dlookup_none_iff.1 hk)
    | some y =>
      constructor
      · intro h; cases h; exact ⟨d, rfl, dlookup_mem hk⟩
      · rintro ⟨_, e, hm⟩
        cases e
        rw [dlookup_of_mem hw.1 hm] at hk
        cases hk
        rfl
  | _ => simp [look]

/-- the number of attributes of the keys of a mapping -/
theorem attribute_reports {t : Test} {P : Int → Int → Prop} (ht : t.Means P) {tm : Val} (hw : tm.WF)
    (h : Entries tm "Mappings" IsMapping) (path : List Val) :
    Reports (attributeLimit t tm) path ↔ ∃ m a e, look tm [.str "Mappings", m, a] = some (.dict e) ∧
      P 200 e.length ∧ path = [.str "Mappings", m.toVal, a.toVal] := by
  obtain ⟨d, hd, hP, hn, hl⟩ := entries_section hw h
  have hlen : ∀ v : Val, (∃ e, v = .dict e) → pyLen v = .ok (pyLen v).toOption.get! := by
    rintro v ⟨e, rfl⟩; rfl
  let f : Key → Key × Val → List LimitMatch := fun name kv =>
    t.report [.str "Mappings", name.toVal, kv.1.toVal] "The amount of mapping attributes" "" attributesMax
      ((pyLen kv.2).toOption.get! : Nat)
  let g : Key × Val → List LimitMatch := fun kv =>
    match kv.2 with
    | .dict attrs => attrs.flatMap (f kv.1)
    | _ => []
  have hg : ∀ kv ∈ d, mappingAttributes t kv = .ok (g kv) := by
    intro kv hkv
    obtain ⟨⟨attrs, e, ha⟩, _⟩ := hP kv hkv
    rw [mappingAttributes, e]
    dsimp only [pyItems]
    rw [gatherAll_ok (g := f kv.1)]
    · show _ = Except.ok (match kv.2 with | .dict attrs => attrs.flatMap (f kv.1) | _ => [])
      rw [e]
    · intro x hx
      obtain ⟨e', he'⟩ := ha x hx
      rw [mappingAttribute, hlen _ ⟨e', he'⟩]
  rw [attributeLimit, hd]
  dsimp only [pyItems]
  rw [gatherAll_ok hg, reports_ok, flatMap_reports]
  constructor
  · rintro ⟨⟨k, v⟩, hkv, hm⟩
    obtain ⟨⟨attrs, e, ha⟩, hwv⟩ := hP _ hkv
    dsimp only at e
    subst e
    simp only [g] at hm
    rw [flatMap_reports] at hm
    obtain ⟨⟨a, x⟩, hx, hm⟩ := hm
    obtain ⟨e', he'⟩ := ha _ hx
    dsimp only at he'
    subst he'
    rw [report_iff, ht attributesMax (by decide)] at hm
    exact ⟨k, a, e', (hl k [a] _).2 ⟨_, hkv, (look_one hwv).2 ⟨_, rfl, hx⟩⟩, hm.1, hm.2⟩
  · rintro ⟨k, a, e', hlk, hp, rfl⟩
    obtain ⟨v, hv, hlk⟩ := (hl k [a] _).1 hlk
    obtain ⟨attrs, rfl, hx⟩ := (look_one (hP _ hv).2).1 hlk
    refine ⟨(k, .dict attrs), hv, ?_⟩
    simp only [g]
    rw [flatMap_reports]
    refine ⟨(a, .dict e'), hx, ?_⟩
    rw [report_iff, ht attributesMax (by decide)]
    exact ⟨hp, rfl⟩

/-- C45, mapping attributes: when every mapping is an object of objects, the rules report exactly the keys with
more than (close to) 200 attributes. -/
theorem C45_attributes_partial {tm : Val} (hw : tm.WF) (h : Entries tm "Mappings" IsMapping) (path : List Val) :
    (Reports (attributeLimit overTest tm) path ↔ ∃ m a e, look tm [.str "Mappings", m, a] = some (.dict e) ∧
      Over 200 e.length ∧ path = [.str "Mappings", m.toVal, a.toVal]) ∧
    (Reports (attributeLimit nearTest tm) path ↔ ∃ m a e, look tm [.str "Mappings", m, a] = some (.dict e) ∧
      Near 200 e.length ∧ path = [.str "Mappings", m.toVal, a.toVal]) :=
  ⟨attribute_reports overTest_means hw h path, attribute_reports nearTest_means hw h path⟩

/-- an output whose description, if it has one, is a text -/
def IsOutput (v : Val) : Prop := ∃ d, v = .dict d ∧ ∀ x, dlookup (Key.str "Description") d = some x → ∃ s, x = .str s

theorem output_reports {t : Test} {P : Int → Int → Prop} (ht : t.Means P) (h0 : ¬ P 1024 0) {tm : Val} (hw : tm.WF)
    (h : Entries tm "Outputs" IsOutput) (path : List Val) :
    Reports (outputDescriptionLimit t tm) path ↔
      ∃ (o : Key) (s : String), look tm [.str "Outputs", o, .str "Description"] = some (.str s) ∧
        P 1024 s.toList.length ∧ path = [.str "Outputs", o.toVal, .str "Description"] := by
  obtain ⟨d, hd, hP, hn, hl⟩ := entries_section hw h
  let g : Key × Val → List LimitMatch := fun kv =>
    match look kv.2 [.str "Description"] with
    | some (.str s) => t.report [.str "Outputs", kv.1.toVal, .str "Description"]
        "The length of output description" "" outputDescriptionMax s.toList.length
    | _ => []
  have hempty : ∀ p w u, t.report p w u outputDescriptionMax (("" : String).toList.length : Int) = [] := by
    intro p w u
    unfold Test.report
    rw [if_neg]
    rw [ht outputDescriptionMax (by decide)]
    exact h0
  have hg : ∀ kv ∈ d, outputDescription t kv = .ok (g kv) := by
    rintro ⟨k, v⟩ hkv
    obtain ⟨⟨props, e, ha⟩, _⟩ := hP _ hkv
    dsimp only at e
    subst e
    simp only [outputDescription, Val.getD, g, look]
    cases hx : dlookup (Key.str "Description") props with
    | none => rfl
    | some x =>
      obtain ⟨s, rfl⟩ := ha x hx
      dsimp only [Option.getD_some, Val.truthy, look, pyLen]
      by_cases he : s = ""
      · subst he
        rw [hempty]
        rfl
      · have hb : (s != "") = true := by simpa using he
        simp only [hb, if_true]
  rw [outputDescriptionLimit, hd]
  dsimp only [pyItems]
  rw [gatherAll_ok hg, reports_ok, flatMap_reports]
  constructor
  · rintro ⟨⟨k, v⟩, hkv, hm⟩
    simp only [g] at hm
    split at hm
    · rename_i s hs
      rw [report_iff, ht outputDescriptionMax (by decide)] at hm
      exact ⟨k, s, (hl k _ _).2 ⟨v, hkv, hs⟩, hm.1, hm.2⟩
    · obtain ⟨_, hm, _⟩ := hm; cases hm
  · rintro ⟨k, s, hlk, hp, rfl⟩
    obtain ⟨v, hv, hlk⟩ := (hl k _ _).1 hlk
    refine ⟨(k, v), hv, ?_⟩
    simp only [g]
    rw [hlk]
    dsimp only
    rw [report_iff, ht outputDescriptionMax (by decide)]
    exact ⟨hp, rfl⟩

/-- C45, output descriptions: measured in characters, when every description is a text. -/
theorem C45_output_description_partial {tm : Val} (hw : tm.WF) (h : Entries tm "Outputs" IsOutput) (path : List Val) :
    (Reports (outputDescriptionLimit overTest tm) path ↔
      ∃ (o : Key) (s : String), look tm [.str "Outputs", o, .str "Description"] = some (.str s) ∧
        Over 1024 s.toList.length ∧ path = [.str "Outputs", o.toVal, .str "Description"]) ∧
    (Reports (outputDescriptionLimit nearTest tm) path ↔
      ∃ (o : Key) (s : String), look tm [.str "Outputs", o, .str "Description"] = some (.str s) ∧
        Near 1024 s.toList.length ∧ path = [.str "Outputs", o.toVal, .str "Description"]) :=
  ⟨output_reports overTest_means (by decide) hw h path, output_reports nearTest_means (by decide) hw h path⟩

/-- a parameter whose allowed values, if it has any, are a list -/
def IsParameter (v : Val) : Prop :=
  ∃ d, v = .dict d ∧ ∀ x, dlookup (Key.str "AllowedValues") d = some x → ∃ xs, x = .list xs

/-- something in a parameter has that size: the default text, the number given as maximum length, an allowed text -/
inductive ParameterSize (v : Val) : String → Int → Prop where
  | default {s : String} : look v [.str "Default"] = some (.str s) → ParameterSize v "Default" s.toList.length
  | maxInt {i : Int} : look v [.str "MaxLength"] = some (.int i) → ParameterSize v "MaxLength" i
  | maxBool {b : Bool} : look v [.str "MaxLength"] = some (.bool b) → ParameterSize v "MaxLength" (if b then 1 else 0)
  | maxStr {s : String} {i : Int} : look v [.str "MaxLength"] = some (.str s) → pyIntStr s = some i →
      ParameterSize v "MaxLength" i
  | allowed {xs : List Val} {s : String} : look v [.str "AllowedValues"] = some (.list xs) → .str s ∈ xs →
      ParameterSize v "AllowedValues" s.toList.length

theorem value_reports {t : Test} {P : Int → Int → Prop} (ht : t.Means P) (h0 : ¬ P 4096 0) {tm : Val} (hw : tm.WF)
    (h : Entries tm "Parameters" IsParameter) (path : List Val) :
    Reports (valueLimit t tm) path ↔
      ∃ (p : Key) (v : Val) (part : String) (n : Int), look tm [.str "Parameters", p] = some v ∧
        ParameterSize v part n ∧ P 4096 n ∧ path = [.str "Parameters", p.toVal, .str part] := by
  obtain ⟨d, hd, hP, hn, hl⟩ := entries_section hw h
  let allowed : List (Key × Val) → List Val := fun props =>
    match dlookup (Key.str "AllowedValues") props with
    | some (.list xs) => xs
    | _ => []
  let g : Key × Val → List LimitMatch := fun kv =>
    match kv.2 with
    | .dict props =>
      defaultMatches t kv.1 ((dlookup (Key.str "Default") props).getD .none) ++
        maxLengthMatches t kv.1 ((dlookup (Key.str "MaxLength") props).getD (.int 0)) ++
        (allowed props).flatMap (allowedMatches t kv.1)
    | _ => []
  have hg : ∀ kv ∈ d, parameterValue t kv = .ok (g kv) := by
    rintro ⟨k, v⟩ hkv
    obtain ⟨⟨props, e, ha⟩, _⟩ := hP _ hkv
    dsimp only at e
    subst e
    simp only [parameterValue, g, allowed]
    cases hx : dlookup (Key.str "AllowedValues") props with
    | none => rfl
    | some x =>
      obtain ⟨xs, rfl⟩ := ha x hx
      rfl
  have hitems : pyItems (if (Val.dict d).truthy then .dict d else .dict []) = .ok d := by
    cases d with
    | nil => rfl
    | cons => rfl
  rw [valueLimit, hd]
  dsimp only
  rw [hitems]
  dsimp only
  rw [gatherAll_ok hg, reports_ok, flatMap_reports]
  have hmax : valueMax ∈ usedLimits := by decide
  have key : ∀ k v, (k, v) ∈ d → ((∃ m ∈ g (k, v), m.path = path) ↔
      ∃ part n, ParameterSize v part n ∧ P 4096 n ∧ path = [.str "Parameters", k.toVal, .str part]) := by
    intro k v hkv
    obtain ⟨⟨props, e, ha⟩, _⟩ := hP _ hkv
    dsimp only at e
    subst e
    have hdef : (∃ m ∈ defaultMatches t k ((dlookup (Key.str "Default") props).getD .none), m.path = path) ↔
        ∃ s : String, look (.dict props) [.str "Default"] = some (.str s) ∧ P 4096 s.toList.length ∧
          path = [.str "Parameters", k.toVal, .str "Default"] := by
      simp only [look]
      cases hx : dlookup (Key.str "Default") props with
      | none => simp [defaultMatches]
      | some x =>
        cases x with
        | str s =>
          simp only [Option.getD_some, defaultMatches, look]
          rw [report_iff, ht _ hmax]
          constructor
          · rintro ⟨h1, h2⟩; exact ⟨s, rfl, h1, h2⟩
          · rintro ⟨_, e, h1, h2⟩; cases e; exact ⟨h1, h2⟩
        | _ => simp [defaultMatches, look]
    have hml : (∃ m ∈ maxLengthMatches t k ((dlookup (Key.str "MaxLength") props).getD (.int 0)), m.path = path) ↔
        ∃ n, ParameterSize (.dict props) "MaxLength" n ∧ P 4096 n ∧
          path = [.str "Parameters", k.toVal, .str "MaxLength"] := by
      have hshape : ∀ n, ParameterSize (.dict props) "MaxLength" n → P 4096 n →
          maxLengthValue ((dlookup (Key.str "MaxLength") props).getD (.int 0)) = some n := by
        intro n hs hp
        generalize hpart : "MaxLength" = part at hs
        have hl1 : ∀ x, look (.dict props) [.str "MaxLength"] = some x → dlookup (Key.str "MaxLength") props = some x := by
          intro x hx
          simp only [look] at hx
          split at hx
          · rename_i y hy; cases hx; exact hy
          · cases hx
        cases hs with
        | default _ => exact absurd hpart (by decide)
        | maxInt hx => rw [hl1 _ hx]; rfl
        | maxBool hx => rw [hl1 _ hx]; rfl
        | maxStr hx hi => rw [hl1 _ hx, Option.getD_some, maxLengthValue, hi]; rfl
        | allowed _ _ => exact absurd hpart (by decide)
      unfold maxLengthMatches
      constructor
      · rintro ⟨m, hm, hp⟩
        split at hm
        · rename_i n hn'
          obtain ⟨h1, h2⟩ := report_iff.1 ⟨m, hm, hp⟩
          rw [ht _ hmax] at h1
          refine ⟨n, ?_, h1, h2⟩
          have h1' : P 4096 n := h1
          cases hx : dlookup (Key.str "MaxLength") props with
          | none =>
            rw [hx] at hn'
            cases hn'
            exact absurd h1' h0
          | some x =>
            have hlx : look (.dict props) [.str "MaxLength"] = some x := by simp [look, hx]
            rw [hx, Option.getD_some] at hn'
            cases x with
            | int i => cases hn'; exact .maxInt hlx
            | bool b => cases hn'; exact .maxBool hlx
            | str s =>
              cases hi : pyIntStr s with
              | none => rw [maxLengthValue, hi] at hn'; cases hn'; exact absurd h1' h0
              | some i => rw [maxLengthValue, hi] at hn'; cases hn'; exact .maxStr hlx hi
            | _ => cases hn'
        · cases hm
      · rintro ⟨n, hs, hp, e⟩
        rw [hshape n hs hp]
        dsimp only
        rw [report_iff, ht _ hmax]
        exact ⟨hp, e⟩
    have hall : (∃ m ∈ (allowed props).flatMap (allowedMatches t k), m.path = path) ↔
        ∃ (xs : List Val) (s : String), look (.dict props) [.str "AllowedValues"] = some (.list xs) ∧ .str s ∈ xs ∧
          P 4096 s.toList.length ∧ path = [.str "Parameters", k.toVal, .str "AllowedValues"] := by
      rw [flatMap_reports]
      have hone : ∀ x, (∃ m ∈ allowedMatches t k x, m.path = path) ↔ ∃ s : String, x = .str s ∧ P 4096 s.toList.length ∧
          path = [.str "Parameters", k.toVal, .str "AllowedValues"] := by
        intro x
        cases x with
        | str s =>
          simp only [allowedMatches]
          rw [report_iff, ht _ hmax]
          constructor
          · rintro ⟨h1, h2⟩; exact ⟨s, rfl, h1, h2⟩
          · rintro ⟨_, e, h1, h2⟩; cases e; exact ⟨h1, h2⟩
        | _ => simp [allowedMatches]
      simp only [hone, allowed, look]
      cases hx : dlookup (Key.str "AllowedValues") props with
      | none => simp
      | some x =>
        obtain ⟨xs, rfl⟩ := ha x hx
        dsimp only [look]
        constructor
        · rintro ⟨x, hx, s, rfl, h1, h2⟩; exact ⟨xs, s, rfl, hx, h1, h2⟩
        · rintro ⟨_, s, e, hx, h1, h2⟩; cases e; exact ⟨_, hx, s, rfl, h1, h2⟩
    simp only [g, List.mem_append]
    constructor
    · rintro ⟨m, (hm | hm) | hm, hp⟩
      · obtain ⟨s, h1, h2, h3⟩ := hdef.1 ⟨m, hm, hp⟩
        exact ⟨_, _, .default h1, h2, h3⟩
      · obtain ⟨n, h1, h2, h3⟩ := hml.1 ⟨m, hm, hp⟩
        exact ⟨_, _, h1, h2, h3⟩
      · obtain ⟨xs, s, h1, h2, h3, h4⟩ := hall.1 ⟨m, hm, hp⟩
        exact ⟨_, _, .allowed h1 h2, h3, h4⟩
    · rintro ⟨part, n, hs, hp, e⟩
      cases hs with
      | default hx =>
        obtain ⟨m, hm, h⟩ := hdef.2 ⟨_, hx, hp, e⟩
        exact ⟨m, .inl (.inl hm), h⟩
      | maxInt hx =>
        obtain ⟨m, hm, h⟩ := hml.2 ⟨_, .maxInt hx, hp, e⟩
        exact ⟨m, .inl (.inr hm), h⟩
      | maxBool hx =>
        obtain ⟨m, hm, h⟩ := hml.2 ⟨_, .maxBool hx, hp, e⟩
        exact ⟨m, .inl (.inr hm), h⟩
      | maxStr hx hi =>
        obtain ⟨m, hm, h⟩ := hml.2 ⟨_, .maxStr hx hi, hp, e⟩
        exact ⟨m, .inl (.inr hm), h⟩
      | allowed hx hm =>
        obtain ⟨m, hm, h⟩ := hall.2 ⟨_, _, hx, hm, hp, e⟩
        exact ⟨m, .inr hm, h⟩
  constructor
  · rintro ⟨⟨k, v⟩, hkv, hm⟩
    obtain ⟨part, n, h1, h2, h3⟩ := (key k v hkv).1 hm
    exact ⟨k, v, part, n, (hl k [] _).2 ⟨v, hkv, rfl⟩, h1, h2, h3⟩
  · rintro ⟨k, v, part, n, hlk, h1, h2, h3⟩
    obtain ⟨v', hv, hlk⟩ := (hl k [] _).1 hlk
    cases hlk
    exact ⟨(k, _), hv, (key k _ hv).2 ⟨part, n, h1, h2, h3⟩⟩

/-- C45, parameter values: default texts, maximum lengths and allowed texts, when every parameter is an object and
its allowed values a list. -/
theorem C45_values_partial {tm : Val} (hw : tm.WF) (h : Entries tm "Parameters" IsParameter) (path : List Val) :
    (Reports (valueLimit overTest tm) path ↔
      ∃ (p : Key) (v : Val) (part : String) (n : Int), look tm [.str "Parameters", p] = some v ∧
        ParameterSize v part n ∧ Over 4096 n ∧ path = [.str "Parameters", p.toVal, .str part]) ∧
    (Reports (valueLimit nearTest tm) path ↔
      ∃ (p : Key) (v : Val) (part : String) (n : Int), look tm [.str "Parameters", p] = some v ∧
        ParameterSize v part n ∧ Near 4096 n ∧ path = [.str "Parameters", p.toVal, .str part]) :=
  ⟨value_reports overTest_means (by decide) hw h path, value_reports nearTest_means (by decide) hw h path⟩

/-- a template that meets the hypotheses of the theorems above -/
def limitSample : Val := .dict
  [(.str "Mappings", .dict [(.str "M", .dict [(.str "k", .dict [(.str "a", .int 1)])])]),
   (.str "Parameters", .dict [(.str "P", .dict [(.str "MaxLength", .int 5000)])]),
   (.str "Outputs", .dict [(.str "O", .dict [(.str "Description", .str "text")])]),
   (.str "Resources", .dict [(.str "R", .dict [(.str "Type", .str "AWS::S3::Bucket")])])]

example : limitSample.WF := by
  simp [limitSample, Val.WF, Val.WFDict]

example : Named limitSample "Resources" := by
  refine ⟨⟨_, rfl⟩, ?_⟩
  intro v h
  cases h
  exact ⟨_, rfl, by simp⟩

example : Entries limitSample "Mappings" IsMapping := by
  refine ⟨⟨_, rfl⟩, ?_⟩
  intro v h
  cases h
  exact ⟨_, rfl, by simp [IsMapping]⟩

example : Entries limitSample "Outputs" IsOutput := by
  refine ⟨⟨_, rfl⟩, ?_⟩
  intro v h
  cases h
  exact ⟨_, rfl, by simp [IsOutput, dlookup]⟩

example : Entries limitSample "Parameters" IsParameter := by
  refine ⟨⟨_, rfl⟩, ?_⟩
  intro v h
  cases h
  exact ⟨_, rfl, by simp [IsParameter, dlookup]⟩

example : valueLimit overTest limitSample = .ok
    [⟨[.str "Parameters", .str "P", .str "MaxLength"], "The MaxLength of parameter (5000) exceeds the limit (4096)"⟩] := by
  decide

theorem byteSize_ascii {s : String} (h : ∀ c ∈ s.toList, c.toNat < 128) : byteSize s = s.toList.length := by
  unfold byteSize
  revert h
  induction s.toList with
  | nil => simp
  | cons c cs ih =>
    intro h
    rw [List.map_cons, List.sum_cons, ih (fun x hx => h x (List.mem_cons_of_mem _ hx)),
      charBytes, if_pos (h c List.mem_cons_self), List.length_cons]
    omega

theorem length_le_byteSize (s : String) : s.toList.length ≤ byteSize s := by
  unfold byteSize
  induction s.toList with
  | nil => simp
  | cons c cs ih =>
    rw [List.map_cons, List.sum_cons, List.length_cons]
    have : 1 ≤ charBytes c := by unfold charBytes; split <;> (try split) <;> (try split) <;> omega
    omega

/-- C48 in full: the description is reported iff it has more than 1024 bytes -/
def C48_statement : Prop :=
  ∀ (d : List (Key × Val)) (s : String), look (.dict d) [.str "Description"] = some (.str s) →
    (Reports (templateDescriptionLimit overTest (.dict d)) [.str "Description"] ↔ Over 1024 (byteSize s))

/-- a description of 1024 characters of two bytes each -/
def wideText : String := String.ofList (List.replicate 1024 'é')

theorem wide_bytes (n : Nat) : byteSize (String.ofList (List.replicate n 'é')) = n * 2 := by
  simp only [byteSize, String.toList_ofList, List.map_replicate, List.sum_replicate_nat]
  rfl

/-- Fails: the rule counts characters. 1024 accented letters are 2048 bytes and are not reported. -/
theorem C48_violated : ¬ C48_statement := by
  intro h
  have h1 := h [(.str "Description", .str wideText)] wideText (by simp [look, dlookup])
  have hl : wideText.toList.length = 1024 := replicate_text_length 1024 'é'
  have hb : byteSize wideText = 2048 := wide_bytes 1024
  rw [description_reports overTest_means (s := wideText) (by simp [look, dlookup]), hl, hb] at h1
  revert h1
  decide

/-- C48 for ASCII descriptions: reported iff more than 1024 bytes. -/
theorem C48_ascii_partial {d : List (Key × Val)} {s : String}
    (hs : look (.dict d) [.str "Description"] = some (.str s)) (ha : ∀ c ∈ s.toList, c.toNat < 128) :
    Reports (templateDescriptionLimit overTest (.dict d)) [.str "Description"] ↔ Over 1024 (byteSize s) := by
  rw [description_reports overTest_means hs, byteSize_ascii ha]
  simp

/-- C48, no false alarm: a description that is reported has more than 1024 bytes. -/
theorem C48_sound_partial {d : List (Key × Val)} {s : String}
    (hs : look (.dict d) [.str "Description"] = some (.str s))
    (h : Reports (templateDescriptionLimit overTest (.dict d)) [.str "Description"]) : Over 1024 (byteSize s) := by
  have := ((description_reports overTest_means hs _).1 h).1
  have hl := length_le_byteSize s
  unfold Over at *
  omega

end CfnLint
