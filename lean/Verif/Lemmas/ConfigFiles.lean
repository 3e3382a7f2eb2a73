import Verif.Model.ConfigFiles
import Verif.Spec.ConfigFiles
import Verif.Lemmas.Config
/-
Lemmas on configuration files: the schema and merging.
-/
namespace CfnLint
open Spec

theorem isStrVal_iff (v : Val) : isStrVal v = true ↔ ∃ s, v = .str s := by
  cases v <;> simp [isStrVal]

theorem isStrings_iff (v : Val) : isStrings v = true ↔ StringList v := by
  unfold StringList
  cases v with
  | list xs =>
    simp only [isStrings, List.all_eq_true, isStrVal_iff, Val.list.injEq]
    constructor
    · intro h
      induction xs with
      | nil => exact ⟨[], rfl⟩
      | cons x xs ih =>
        obtain ⟨s, rfl⟩ := h x List.mem_cons_self
        obtain ⟨l, hl⟩ := ih fun y hy => h y (List.mem_cons_of_mem _ hy)
        exact ⟨s :: l, by rw [hl]; rfl⟩
    · rintro ⟨l, rfl⟩ x hx
      obtain ⟨s, _, rfl⟩ := List.mem_map.1 hx
      exact ⟨s, rfl⟩
  | _ => simp [isStrings]

theorem dropWhile_line : ∀ cs : List Char,
    (cs.dropWhile (fun c => c != '\n') = [] ↔ '\n' ∉ cs) ∧
    (cs.dropWhile (fun c => c != '\n') = ['\n'] ↔ ∃ a, '\n' ∉ a ∧ cs = a ++ ['\n'])
  | [] => by simp
  | c :: cs => by
    obtain ⟨h1, h2⟩ := dropWhile_line cs
    by_cases hc : c = '\n'
    · subst hc
      simp only [List.dropWhile_cons, bne_self_eq_false, Bool.false_eq_true, if_false]
      refine ⟨by simp, ⟨fun h => ⟨[], by simp, by simpa using h⟩, ?_⟩⟩
      rintro ⟨a, ha, h⟩
      cases a with
      | nil => simpa using h
      | cons x a => simp at h ha; exact absurd h.1 ha.1
    · have : (c != '\n') = true := by simp [hc]
      simp only [List.dropWhile_cons, this, if_true]
      rw [h1, h2]
      refine ⟨by simp [Ne.symm hc], ?_⟩
      constructor
      · rintro ⟨a, ha, rfl⟩
        exact ⟨c :: a, by simp [ha, Ne.symm hc], rfl⟩
      · rintro ⟨a, ha, h⟩
        cases a with
        | nil => simp at h; exact absurd h.1 hc
        | cons x a =>
          simp at h ha
          exact ⟨a, ha.2, h.2⟩

theorem dotStarLine_iff (s : String) : dotStarLine s = true ↔ SingleLine s := by
  have h := dropWhile_line s.toList
  unfold dotStarLine SingleLine
  simp only [Bool.or_eq_true, beq_iff_eq, h.1, h.2]
  constructor
  · rintro (h | ⟨a, ha, h⟩)
    · exact ⟨_, h, .inl rfl⟩
    · exact ⟨a, ha, .inr h⟩
  · rintro ⟨a, ha, h | h⟩
    · exact .inl (h ▸ ha)
    · exact .inr ⟨a, ha, h⟩

theorem fltWhole_iff (r : String) : fltWhole r = true ↔
    (∃ a, r.toList = a ++ ['.', '0']) ∨ '+' ∈ r.toList := by
  unfold fltWhole endsWith
  simp only [Bool.or_eq_true, List.isSuffixOf_iff_suffix, List.contains_iff_mem]
  refine or_congr ⟨?_, ?_⟩ Iff.rfl
  · rintro ⟨a, h⟩; exact ⟨a, h.symm⟩
  · rintro ⟨a, h⟩; exact ⟨a, h.symm⟩

theorem isScalar_iff (v : Val) : isScalar v = true ↔ Simple v := by
  unfold Simple
  cases v <;> simp [isScalar, fltWhole_iff]

theorem okRule_iff (v : Val) : okRule v = true ↔ RuleSettings v := by
  unfold RuleSettings
  cases v with
  | dict kvs =>
    simp only [okRule, List.all_eq_true, Val.dict.injEq, exists_eq_left']
    refine forall₂_congr fun kv _ => ?_
    obtain ⟨k, w⟩ := kv
    cases k with
    | str s =>
      simp only [Bool.or_eq_true, Bool.not_eq_true', Key.str.injEq, exists_eq_left', isScalar_iff,
        ← dotStarLine_iff]
      cases dotStarLine s <;> simp
    | int i => simp
  | _ => simp [okRule]

theorem okRules_iff (v : Val) : okRules v = true ↔ RulesSettings v := by
  unfold RulesSettings
  cases v with
  | dict kvs =>
    simp only [okRules, List.all_eq_true, Val.dict.injEq, exists_eq_left']
    refine forall₂_congr fun kv _ => ?_
    obtain ⟨k, w⟩ := kv
    cases k with
    | str s => simp [okRule_iff, dotStarLine_iff]
    | int i => simp
  | _ => simp [okRules]

theorem okOption_iff (n : String) (v : Val) : okOption n v = true ↔ FileOption n v := by
  unfold okOption
  constructor
  · intro h
    split at h
    · rename_i hn; exact .names hn ((isStrings_iff v).1 h)
    · split at h
      · rename_i hn
        obtain ⟨s, rfl⟩ := (isStrVal_iff v).1 h
        exact .path (by simpa [pathOptions] using hn)
      · split at h
        · rename_i hn; subst hn; exact .rules ((okRules_iff v).1 h)
        · exact absurd h (by simp)
  · intro h
    cases h with
    | names hn hv => rw [if_pos (by exact hn)]; exact (isStrings_iff v).2 hv
    | path hn =>
      rcases hn with rfl | rfl
      · rw [if_neg (by decide), if_pos (by decide)]; rfl
      · rw [if_neg (by decide), if_pos (by decide)]; rfl
    | rules hv =>
      rw [if_neg (by decide), if_neg (by decide), if_pos rfl]
      exact (okRules_iff v).2 hv

theorem okConfig_iff (v : Val) : okConfig v = true ↔ FileConfig v := by
  unfold FileConfig
  cases v with
  | dict kvs =>
    simp only [okConfig, List.all_eq_true, Val.dict.injEq, exists_eq_left']
    refine forall₂_congr fun kv _ => ?_
    obtain ⟨k, w⟩ := kv
    cases k with
    | str s => simp [okOption_iff]
    | int i => simp
  | _ => simp [okConfig]

theorem validate_ok (v : Val) (u : Unit) : validateConfig v = .ok u ↔ FileConfig v := by
  unfold validateConfig
  rw [← okConfig_iff]
  split <;> simp_all

/-- every entry of a merged dictionary has what all entries of both have, if merging keeps it -/
theorem mergeConfig_all {P : Key → Val → Prop} (hm : ∀ k v w, P k v → P k w → P k (mergeVal v w))
    {u p : List (Key × Val)} (hu : ∀ kv ∈ u, P kv.1 kv.2) (hp : ∀ kv ∈ p, P kv.1 kv.2) :
    ∀ kv ∈ mergeConfig u p, P kv.1 kv.2 := by
  intro kv h
  unfold mergeConfig at h
  rw [mergeKeep_map] at h
  rcases List.mem_append.1 h with h | h
  · obtain ⟨x, hx, rfl⟩ := List.mem_map.1 h
    dsimp only
    cases hd : dlookup x.1 p with
    | none => exact hu x hx
    | some pv => exact hm _ _ _ (hu x hx) (hp (x.1, pv) (dlookup_mem hd))
  · exact hp kv (List.mem_filter.1 h).1

theorem simple_not_dict {v : Val} (h : Simple v) : v.isDict = false := by
  rcases h with ⟨s, rfl⟩ | ⟨i, rfl⟩ | ⟨b, rfl⟩ | ⟨r, rfl, _⟩ <;> rfl

theorem merge_ruleSettings {v w : Val} (hv : RuleSettings v) (hw : RuleSettings w) :
    RuleSettings (mergeVal v w) := by
  obtain ⟨a, rfl, ha⟩ := hv
  obtain ⟨b, rfl, hb⟩ := hw
  rw [mergeVal_dict]
  refine ⟨_, rfl, mergeConfig_all (P := fun k v => ∃ n, k = .str n ∧ (SingleLine n → Simple v)) ?_ ha hb⟩
  rintro k x y ⟨n, rfl, hx⟩ ⟨n', h, hy⟩
  cases h
  refine ⟨n, rfl, fun h => ?_⟩
  rw [mergeVal_nondict (.inl (simple_not_dict (hx h)))]
  exact hy h

theorem merge_rulesSettings {v w : Val} (hv : RulesSettings v) (hw : RulesSettings w) :
    RulesSettings (mergeVal v w) := by
  obtain ⟨a, rfl, ha⟩ := hv
  obtain ⟨b, rfl, hb⟩ := hw
  rw [mergeVal_dict]
  refine ⟨_, rfl, mergeConfig_all
    (P := fun k v => ∃ n, k = .str n ∧ SingleLine n ∧ RuleSettings v) ?_ ha hb⟩
  rintro k x y ⟨n, rfl, hn, hx⟩ ⟨n', h, _, hy⟩
  cases h
  exact ⟨n, rfl, hn, merge_ruleSettings hx hy⟩

theorem merge_fileOption {n : String} {v w : Val} (hv : FileOption n v) (hw : FileOption n w) :
    FileOption n (mergeVal v w) := by
  cases hv with
  | names hn h =>
    obtain ⟨l, rfl⟩ := h
    rw [mergeVal_nondict (.inl rfl)]; exact hw
  | path h => rw [mergeVal_nondict (.inl rfl)]; exact hw
  | rules h =>
    cases hw with
    | names hn h' => exact absurd hn (by decide)
    | path h' => rcases h' with h' | h' <;> exact absurd h' (by decide)
    | rules h' => exact .rules (merge_rulesSettings h h')

/-- two accepted files merge into an accepted one -/
theorem merge_fileConfig {v w : Val} (hv : FileConfig v) (hw : FileConfig w) :
    FileConfig (mergeVal v w) := by
  obtain ⟨a, rfl, ha⟩ := hv
  obtain ⟨b, rfl, hb⟩ := hw
  rw [mergeVal_dict]
  refine ⟨_, rfl, mergeConfig_all (P := fun k v => ∃ n, k = .str n ∧ FileOption n v) ?_ ha hb⟩
  rintro k x y ⟨n, rfl, hx⟩ ⟨n', h, hy⟩
  cases h
  exact ⟨n, rfl, merge_fileOption hx hy⟩

theorem readConfig_iff (m : Machine) (p : String) (v : Val) :
    m.readConfig p = .ok v ↔ FileHolds (m.files (m.resolve p)) v := by
  unfold Machine.readConfig FileHolds
  cases m.files (m.resolve p) with
  | none =>
    exact ⟨fun h => .inl ⟨rfl, (Except.ok.inj h).symm⟩, by
      rintro (⟨_, rfl⟩ | ⟨w, h, _⟩)
      · rfl
      · cases h⟩
  | some r =>
    cases r with
    | error e => simp
    | ok w =>
      constructor
      · intro h
        dsimp only at h
        refine .inr ⟨w, rfl, ?_⟩
        cases ht : w.truthy
        · rw [ht] at h; exact .inr ⟨rfl, (Except.ok.inj h).symm⟩
        · rw [ht] at h; exact .inl ⟨rfl, (Except.ok.inj h).symm⟩
      · rintro (⟨h, _⟩ | ⟨w', h, ht⟩)
        · cases h
        · cases h
          rcases ht with ⟨ht, rfl⟩ | ⟨ht, rfl⟩ <;> simp [ht]

theorem startsWith_append {a p : String} (b : String) (h : startsWith a p = true) :
    startsWith (a ++ b) p = true := by
  unfold startsWith at *
  rw [List.isPrefixOf_iff_prefix] at *
  rw [String.toList_append]
  exact h.trans (List.prefix_append _ _)

theorem joinPath_abs {d : String} (n : String) (h : startsWith d "/" = true) :
    startsWith (joinPath d n) "/" = true := by
  unfold joinPath
  split
  · exact startsWith_append _ h
  · exact startsWith_append _ (startsWith_append _ h)

theorem abs_ne {p : String} (h : startsWith p "/" = true) : p ≠ "" := by
  rintro rfl; exact absurd h (by decide)

theorem resolve_abs (m : Machine) {p : String} (h : startsWith p "/" = true) : m.resolve p = p := by
  unfold Machine.resolve
  rw [if_neg (abs_ne h), if_pos h]

theorem resolve_empty (m : Machine) : m.resolve "" = m.cwd := if_pos rfl

theorem resolve_name (m : Machine) {n : String} (h0 : n ≠ "") (h : startsWith n "/" = false) :
    m.resolve n = joinPath m.cwd n := by
  unfold Machine.resolve
  rw [if_neg h0, if_neg (by simp [h])]

theorem hasFile_abs (m : Machine) {p : String} (h : startsWith p "/" = true) :
    m.hasFile p = (m.files p).isSome := by
  unfold Machine.hasFile; rw [resolve_abs m h]

theorem hasFile_yaml (m : Machine) :
    m.hasFile (rcName ++ ".yaml") = (m.files (joinPath m.cwd (rcName ++ ".yaml"))).isSome := by
  unfold Machine.hasFile; rw [resolve_name m (by decide) (by decide)]

theorem hasFile_yml (m : Machine) :
    m.hasFile (rcName ++ ".yml") = (m.files (joinPath m.cwd (rcName ++ ".yml"))).isSome := by
  unfold Machine.hasFile; rw [resolve_name m (by decide) (by decide)]

theorem projectFile_abs (m : Machine) : startsWith m.projectFile "/" = true := by
  unfold Machine.projectFile
  split
  · exact joinPath_abs _ m.cwdAbs
  · split
    · exact joinPath_abs _ m.cwdAbs
    · exact joinPath_abs _ m.cwdAbs

/-- what is read at a found path, or nothing -/
theorem read_found (m : Machine) {p : String} (h : startsWith p "/" = true) :
    m.readConfig (if m.hasFile p then p else "") = m.readConfig p := by
  rw [hasFile_abs m h]
  cases hf : m.files p with
  | none =>
    simp only [Option.isSome_none, Bool.false_eq_true, if_false]
    unfold Machine.readConfig
    rw [resolve_empty, resolve_abs m h, m.cwdDir, hf]
  | some r => simp

theorem loadFound_iff (m : Machine) (v : Val) : m.loadFound = .ok v ↔
    ∃ u p, FileHolds (m.files (joinPath m.home rcName)) u ∧ FileConfig u ∧
      FileHolds (m.files m.projectFile) p ∧ FileConfig p ∧ v = mergeVal u p := by
  have hu := joinPath_abs (n := rcName) m.homeAbs
  have hp := projectFile_abs m
  unfold Machine.loadFound
  simp only [Machine.findConfig]
  rw [read_found m hu, read_found m hp]
  constructor
  · intro h
    cases h1 : m.readConfig (joinPath m.home rcName) with
    | error e => rw [h1] at h; cases h
    | ok u =>
      rw [h1] at h
      cases h2 : validateConfig u with
      | error e => simp only [bind, Except.bind, h2] at h; cases h
      | ok x =>
        cases h3 : m.readConfig m.projectFile with
        | error e => simp only [bind, Except.bind, h2, h3] at h; cases h
        | ok p =>
          cases h4 : validateConfig p with
          | error e => simp only [bind, Except.bind, h2, h3, h4] at h; cases h
          | ok y =>
            simp only [bind, Except.bind, h2, h3, h4] at h
            refine ⟨u, p, ?_, (validate_ok u x).1 h2, ?_, (validate_ok p y).1 h4, ?_⟩
            · have := (readConfig_iff m _ _).1 h1; rwa [resolve_abs m hu] at this
            · have := (readConfig_iff m _ _).1 h3; rwa [resolve_abs m hp] at this
            · cases h; rfl
  · rintro ⟨u, p, h1, h2, h3, h4, rfl⟩
    have e1 := (readConfig_iff m (joinPath m.home rcName) u).2 (by rwa [resolve_abs m hu])
    have e3 := (readConfig_iff m m.projectFile p).2 (by rwa [resolve_abs m hp])
    rw [e1, e3]
    have e2 := (validate_ok u ()).2 h2
    have e4 := (validate_ok p ()).2 h4
    simp only [bind, Except.bind, e2, e4]; rfl

theorem loadConfig_custom (m : Machine) (c : String) (hc : c ≠ "") (v : Val) :
    m.loadConfig (some c) = .ok v ↔ FileHolds (m.files (m.resolve c)) v ∧ FileConfig v := by
  unfold Machine.loadConfig
  simp only [ne_eq, hc, not_false_eq_true, if_true]
  rw [← readConfig_iff]
  cases h1 : m.readConfig c with
  | error e => simp [bind, Except.bind]
  | ok w =>
    cases h2 : validateConfig w with
    | error e =>
      have : ¬ FileConfig w := fun h => by rw [(validate_ok w ()).2 h] at h2; cases h2
      simp only [bind, Except.bind, h2]
      constructor
      · intro h; cases h
      · rintro ⟨h, hv⟩; cases h; exact absurd hv this
    | ok x =>
      have := (validate_ok w x).1 h2
      simp only [bind, Except.bind, h2]
      constructor
      · intro h; cases h; exact ⟨rfl, this⟩
      · rintro ⟨h, hv⟩; cases h; rfl

theorem holds_fun {f : Option (PyM Val)} {v w : Val} (hv : FileHolds f v) (hw : FileHolds f w) : v = w := by
  unfold FileHolds at hv hw
  rcases hv with ⟨h1, rfl⟩ | ⟨a, h1, h2⟩
  · rcases hw with ⟨_, rfl⟩ | ⟨b, h3, _⟩
    · rfl
    · rw [h1] at h3; cases h3
  · rcases hw with ⟨h3, _⟩ | ⟨b, h3, h4⟩
    · rw [h1] at h3; cases h3
    · rw [h1] at h3; cases h3
      rcases h2 with ⟨ht, rfl⟩ | ⟨ht, rfl⟩ <;> rcases h4 with ⟨ht', rfl⟩ | ⟨ht', rfl⟩
      · rfl
      · rw [ht] at ht'; cases ht'
      · rw [ht] at ht'; cases ht'
      · rfl

end CfnLint
