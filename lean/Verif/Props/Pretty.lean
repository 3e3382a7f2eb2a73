import Verif.Model.Format
import Mathlib.Data.List.Perm.Basic
import Mathlib.Data.List.Forall2
import Mathlib.Data.List.Chain
/-
C46: the pretty output lists every finding once. C47: the JUnit output reports every finding once.
-/
namespace CfnLint

/-! ### C46 -/

theorem ofLevel_eq {s : Severity} : ∀ {fs r : List Finding}, ofLevel s fs = .ok r →
    r = fs.filter (fun f => decide (severity f.rule = .ok s)) ∧ ∀ f ∈ fs, ∃ l, severity f.rule = .ok l := by
  intro fs
  induction fs with
  | nil => intro r h; rw [ofLevel] at h; cases h; simp
  | cons f fs ih =>
    intro r h
    rw [ofLevel, levelOf] at h
    split at h
    · cases h
    · rename_i l hl
      split at h
      · cases h
      · rename_i r' hr
        obtain ⟨h1, h2⟩ := ih hr
        cases h
        refine ⟨?_, ?_⟩
        · rw [List.filter_cons, hl, ← h1]
          by_cases hls : l = s <;> simp [hls]
        · rw [List.forall_mem_cons]; exact ⟨⟨l, hl⟩, h2⟩

theorem byLevel_ok {fs r : List Finding} (h : byLevel fs = .ok r) : ∃ e w i u, ofLevel .error fs = .ok e ∧ ofLevel .warning fs = .ok w ∧
    ofLevel .informational fs = .ok i ∧ ofLevel .unknown fs = .ok u ∧ r = e ++ w ++ i ++ u := by
  unfold byLevel at h
  split at h
  · rename_i e w i u h1 h2 h3 h4
    cases h
    exact ⟨e, w, i, u, h1, h2, h3, h4, rfl⟩
  all_goals cases h

theorem levels_perm {fs : List Finding} (h : ∀ f ∈ fs, ∃ l, severity f.rule = .ok l) :
    (fs.filter (fun f => decide (severity f.rule = .ok .error)) ++ fs.filter (fun f => decide (severity f.rule = .ok .warning)) ++
      fs.filter (fun f => decide (severity f.rule = .ok .informational)) ++
      fs.filter (fun f => decide (severity f.rule = .ok .unknown))).Perm fs := by
  induction fs with
  | nil => simp
  | cons f fs ih =>
    rw [List.forall_mem_cons] at h
    have ih := ih h.2
    obtain ⟨l, hl⟩ := h.1
    cases l <;> simp only [List.filter_cons, hl, Except.ok.injEq, reduceCtorEq, decide_false, decide_true, if_true, if_false,
      Bool.false_eq_true, List.cons_append]
    · exact (List.perm_middle (l₁ := _ ++ _)).trans (List.Perm.cons f (by simpa using ih)) |> fun p => by simpa using p
    · exact ih.cons f
    · simp only [List.append_assoc] at ih ⊢
      exact List.perm_middle.trans (ih.cons f)
    · exact List.perm_middle.trans (ih.cons f)

/-- one section of the listing: the file, its findings as they came, and as they are listed -/
structure Section where
  name : String
  found : List Finding
  listed : List Finding

/-- errors before warnings before informational findings before others -/
def rank (f : Finding) : Nat :=
  match severity f.rule with
  | .ok .error => 0
  | .ok .warning => 1
  | .ok .informational => 2
  | _ => 3

/-- a section lists the findings of one file, each once, by level, and within a level in the order found -/
structure Section.Good (s : Section) : Prop where
  nonempty : s.found ≠ []
  file : ∀ f ∈ s.found, f.filename = s.name
  complete : s.listed.Perm s.found
  byLevel : s.listed.Pairwise (fun f g => rank f ≤ rank g)
  stable : ∀ n, s.listed.filter (fun f => rank f == n) = s.found.filter (fun f => rank f == n)

theorem groupByFile_spec (fs : List Finding) : (groupByFile fs).flatMap Prod.snd = fs ∧
    (∀ p ∈ groupByFile fs, p.2 ≠ [] ∧ ∀ f ∈ p.2, f.filename = p.1) ∧
    (groupByFile fs).IsChain (fun p q => p.1 ≠ q.1) := by
  induction fs with
  | nil => simp [groupByFile]
  | cons f fs ih =>
    obtain ⟨h1, h2, h3⟩ := ih
    rw [groupByFile]
    split
    · rename_i hg
      rw [hg] at h1
      simp at h1
      subst h1
      simp
    · rename_i n g rest hg
      rw [hg] at h1 h2 h3
      simp only [List.flatMap_cons] at h1
      rw [List.forall_mem_cons] at h2
      split
      · rename_i hn
        refine ⟨by simp [← h1], ?_, ?_⟩
        · rw [List.forall_mem_cons]
          exact ⟨⟨by simp, by simpa [hn] using h2.1.2⟩, h2.2⟩
        · cases rest with
          | nil => simp
          | cons q rest =>
            rw [List.isChain_cons_cons] at h3 ⊢
            exact h3
      · rename_i hn
        refine ⟨by simp [← h1], ?_, ?_⟩
        · rw [List.forall_mem_cons]
          exact ⟨⟨by simp, by simp⟩, by rw [List.forall_mem_cons]; exact h2⟩
        · rw [List.isChain_cons_cons]
          exact ⟨hn, h3⟩

def sevRank : Severity → Nat
  | .error => 0
  | .warning => 1
  | .informational => 2
  | .unknown => 3

theorem rank_of {f : Finding} {s : Severity} (h : severity f.rule = .ok s) : rank f = sevRank s := by
  unfold rank; rw [h]; cases s <;> rfl

theorem byLevel_good {n : String} {g l : List Finding} (h : byLevel g = .ok l) (h1 : g ≠ [])
    (h2 : ∀ f ∈ g, f.filename = n) : Section.Good ⟨n, g, l⟩ := by
  obtain ⟨e, w, i, u, he, hw, hi, hu, rfl⟩ := byLevel_ok h
  obtain ⟨rfl, hall⟩ := ofLevel_eq he
  obtain ⟨rfl, _⟩ := ofLevel_eq hw
  obtain ⟨rfl, _⟩ := ofLevel_eq hi
  obtain ⟨rfl, _⟩ := ofLevel_eq hu
  have mem : ∀ (s : Severity) f, f ∈ g.filter (fun f => decide (severity f.rule = .ok s)) → severity f.rule = .ok s := by
    intro s f hf; simpa using (List.mem_filter.1 hf).2
  refine ⟨h1, h2, levels_perm hall, ?_, ?_⟩
  · have same : ∀ s, (g.filter (fun f => decide (severity f.rule = .ok s))).Pairwise (fun f g => rank f ≤ rank g) := by
      intro s
      apply List.Pairwise.imp_of_mem (R := fun _ _ => True)
      · intro a b ha hb _
        rw [rank_of (mem s a ha), rank_of (mem s b hb)]
      · exact List.pairwise_of_forall (fun _ _ => trivial)
    simp only [List.pairwise_append]
    refine ⟨⟨⟨same _, same _, ?_⟩, same _, ?_⟩, same _, ?_⟩
    · intro a ha b hb
      rw [rank_of (mem _ a ha), rank_of (mem _ b hb)]; decide
    · intro a ha b hb
      rcases List.mem_append.1 ha with ha | ha <;>
      · rw [rank_of (mem _ a ha), rank_of (mem _ b hb)]; decide
    · intro a ha b hb
      rcases List.mem_append.1 ha with ha | ha
      · rcases List.mem_append.1 ha with ha | ha <;>
        · rw [rank_of (mem _ a ha), rank_of (mem _ b hb)]; decide
      · rw [rank_of (mem _ a ha), rank_of (mem _ b hb)]; decide
  · intro k
    simp only [List.filter_append, List.filter_filter]
    have key : ∀ (s : Severity), g.filter (fun f => rank f == k && decide (severity f.rule = .ok s)) =
        if k = sevRank s then
          g.filter (fun f => rank f == k) else [] := by
      intro s
      split
      · rename_i hk
        apply List.filter_congr
        intro f hf
        obtain ⟨l, hl⟩ := hall f hf
        rw [rank_of hl, hl]
        subst hk
        cases l <;> cases s <;> simp [sevRank]
      · rename_i hk
        rw [List.filter_eq_nil_iff]
        intro f hf
        obtain ⟨l, hl⟩ := hall f hf
        rw [rank_of hl, hl]
        simp only [Except.ok.injEq, Bool.and_eq_true, beq_iff_eq, decide_eq_true_eq, not_and]
        rintro h rfl
        exact hk h.symm
    rw [key, key, key, key]
    simp only [sevRank]
    by_cases h0 : k = 0
    · subst h0; simp
    by_cases h1 : k = 1
    · subst h1; simp
    by_cases h2 : k = 2
    · subst h2; simp
    by_cases h3 : k = 3
    · subst h3; simp
    · simp only [h0, h1, h2, h3, if_false]
      symm
      simp only [List.append_nil]
      rw [List.filter_eq_nil_iff]
      intro f hf
      obtain ⟨l, hl⟩ := hall f hf
      rw [rank_of hl]
      cases l <;> simp [sevRank, Ne.symm h0, Ne.symm h1, Ne.symm h2, Ne.symm h3]

/-- **C46** (listing). The listing consists of sections, one for each run of findings of one file: a line for the file, one
line for each finding, and an empty line. Together the sections list every finding exactly once. -/
theorem C46_listing {shown : Message → List Char} {fs : List Finding} {ls : List (List Char)}
    (h : prettyGroups shown (groupByFile fs) = .ok ls) : ∃ secs : List Section, (∀ s ∈ secs, s.Good) ∧
    secs.flatMap Section.found = fs ∧ secs.IsChain (fun a b => a.name ≠ b.name) ∧
    ls = secs.flatMap (fun s => s.name.toList :: (s.listed.map (prettyLine shown) ++ [[]])) := by
  obtain ⟨h1, h2, h3⟩ := groupByFile_spec fs
  have key : ∀ (gs : List (String × List Finding)) (ls : List (List Char)), prettyGroups shown gs = .ok ls →
      (∀ p ∈ gs, p.2 ≠ [] ∧ ∀ f ∈ p.2, f.filename = p.1) → ∃ secs : List Section, (∀ s ∈ secs, s.Good) ∧
      secs.map (fun s => (s.name, s.found)) = gs ∧
      ls = secs.flatMap (fun s => s.name.toList :: (s.listed.map (prettyLine shown) ++ [[]])) := by
    intro gs
    induction gs with
    | nil => intro ls h _; rw [prettyGroups] at h; cases h; exact ⟨[], by simp, rfl, rfl⟩
    | cons p gs ih =>
      intro ls h hp
      obtain ⟨n, g⟩ := p
      rw [List.forall_mem_cons] at hp
      rw [prettyGroups] at h
      split at h
      · cases h
      · rename_i l hl
        split at h
        · cases h
        · rename_i r hr
          cases h
          obtain ⟨secs, s1, s2, s3⟩ := ih r hr hp.2
          refine ⟨⟨n, g, l⟩ :: secs, ?_, by simp [s2], by simp [s3]⟩
          rw [List.forall_mem_cons]
          exact ⟨byLevel_good hl hp.1.1 hp.1.2, s1⟩
  obtain ⟨secs, s1, s2, s3⟩ := key _ _ h h2
  refine ⟨secs, s1, ?_, ?_, s3⟩
  · rw [← s2] at h1
    rw [List.flatMap_map] at h1
    exact h1
  · rw [← s2, List.isChain_map] at h3
    exact h3

/-- **C46** A line of the listing has three columns: the place with a colon after each number, the id and the message. The columns
are separated by spaces, and the second and third begin at 20 and 30 where what stands before is no wider. -/
theorem C46_columns (shown : Message → List Char) (f : Finding) : ∃ gap1 gap2 : List Char,
    prettyLine shown f = intText f.line ++ [':'] ++ intText f.col ++ [':'] ++ gap1 ++ f.rule.id.toList ++ gap2 ++ messageText shown f.message ∧
    (∀ c ∈ gap1 ++ gap2, c = ' ') ∧
    ((intText f.line ++ [':'] ++ intText f.col ++ [':']).length ≤ 20 →
      (intText f.line ++ [':'] ++ intText f.col ++ [':'] ++ gap1).length = 20 ∧
      (f.rule.id.toList.length ≤ 10 → (prettyLine shown f).drop 30 = messageText shown f.message)) := by
  refine ⟨List.replicate (20 - (intText f.line ++ ':' :: intText f.col ++ [':']).length) ' ',
    List.replicate (10 - f.rule.id.toList.length) ' ', ?_, ?_, ?_⟩
  · simp [prettyLine, padRight]
  · intro c hc
    rw [List.mem_append] at hc
    rcases hc with hc | hc <;> exact (List.mem_replicate.1 hc).2
  · intro h
    have h20 : (intText f.line ++ ':' :: intText f.col ++ [':']).length ≤ 20 := by simpa using h
    refine ⟨?_, fun hid => ?_⟩
    · have : intText f.line ++ [':'] ++ intText f.col ++ [':'] = intText f.line ++ ':' :: intText f.col ++ [':'] := by simp
      rw [this, List.length_append, List.length_replicate]
      omega
    · unfold prettyLine
      have hl : (padRight 20 (intText f.line ++ ':' :: intText f.col ++ [':']) ++ padRight 10 f.rule.id.toList).length = 30 := by
        simp only [padRight, List.length_append, List.length_replicate] at h20 ⊢
        omega
      exact List.drop_left' hl

/-- **C47** The text of a failure begins with the message and ends with the place. -/
theorem C47_failure_text (shown : Message → List Char) (f : Finding) : messageText shown f.message <+: failureText shown f ∧
    " at ".toList ++ f.filename.toList ++ [':'] ++ intText f.line ++ [':'] ++ intText f.col <:+ failureText shown f := by
  refine ⟨?_, ?_⟩
  · unfold failureText
    simp only [List.append_assoc]
    exact List.prefix_append _ _
  · refine ⟨messageText shown f.message, ?_⟩
    simp [failureText]

theorem severity_ok_iff (r : RuleInfo) : (∃ l, severity r = .ok l) ↔ r.id ≠ "" := by
  unfold severity
  split
  · rename_i h
    have : r.id = "" := String.toList_inj.1 h
    simp [this]
  · rename_i c s h
    have : r.id ≠ "" := by intro he; rw [he] at h; simp at h
    simp only [this, ne_eq, not_false_eq_true, iff_true]
    split
    · exact ⟨_, rfl⟩
    · split
      · exact ⟨_, rfl⟩
      · split <;> exact ⟨_, rfl⟩

theorem ofLevel_ok (s : Severity) {fs : List Finding} (h : ∀ f ∈ fs, f.rule.id ≠ "") : ∃ r, ofLevel s fs = .ok r := by
  induction fs with
  | nil => exact ⟨[], rfl⟩
  | cons f fs ih =>
    rw [List.forall_mem_cons] at h
    obtain ⟨r, hr⟩ := ih h.2
    obtain ⟨l, hl⟩ := (severity_ok_iff f.rule).2 h.1
    exact ⟨_, by rw [ofLevel, levelOf, hl, hr]⟩

/-- the output is produced for rules with an id -/
theorem C46_produced (shown : Message → List Char) {fs : List Finding} (h : ∀ f ∈ fs, f.rule.id ≠ "") :
    (∃ ls, prettyGroups shown (groupByFile fs) = .ok ls) ∧ ∃ t, prettyTotals fs = .ok t := by
  constructor
  · obtain ⟨h1, _, _⟩ := groupByFile_spec fs
    have hg : ∀ p ∈ groupByFile fs, ∀ f ∈ p.2, f.rule.id ≠ "" := by
      intro p hp f hf
      apply h
      rw [← h1]
      exact List.mem_flatMap.2 ⟨p, hp, hf⟩
    clear h1
    generalize groupByFile fs = gs at hg
    induction gs with
    | nil => exact ⟨[], rfl⟩
    | cons p gs ih =>
      rw [List.forall_mem_cons] at hg
      obtain ⟨ls, hls⟩ := ih hg.2
      obtain ⟨e, he⟩ := ofLevel_ok .error hg.1
      obtain ⟨w, hw⟩ := ofLevel_ok .warning hg.1
      obtain ⟨i, hi⟩ := ofLevel_ok .informational hg.1
      obtain ⟨u, hu⟩ := ofLevel_ok .unknown hg.1
      exact ⟨_, by rw [prettyGroups, byLevel, he, hw, hi, hu, hls]⟩
  · obtain ⟨e, he⟩ := ofLevel_ok .error h
    obtain ⟨w, hw⟩ := ofLevel_ok .warning h
    obtain ⟨i, hi⟩ := ofLevel_ok .informational h
    exact ⟨_, by rw [prettyTotals, he, hw, hi]⟩

/-- **C46** (totals). The totals count the errors, warnings and informational findings. They add up to the number of
findings iff no rule id starts with another letter. -/
theorem C46_totals {fs : List Finding} {e w i : Nat} (h : prettyTotals fs = .ok (e, w, i)) :
    e = fs.countP (fun f => rank f == 0) ∧ w = fs.countP (fun f => rank f == 1) ∧ i = fs.countP (fun f => rank f == 2) ∧
    (e + w + i = fs.length ↔ ∀ f ∈ fs, rank f ≠ 3) := by
  unfold prettyTotals at h
  split at h
  · rename_i ev wv iv he hw hi
    cases h
    obtain ⟨rfl, hall⟩ := ofLevel_eq he
    obtain ⟨rfl, _⟩ := ofLevel_eq hw
    obtain ⟨rfl, _⟩ := ofLevel_eq hi
    have cnt : ∀ s, (fs.filter (fun f => decide (severity f.rule = .ok s))).length = fs.countP (fun f => rank f == sevRank s) := by
      intro s
      rw [← List.countP_eq_length_filter]
      apply List.countP_congr
      intro f hf
      obtain ⟨l, hl⟩ := hall f hf
      rw [rank_of hl, hl]
      cases l <;> cases s <;> simp [sevRank]
    refine ⟨cnt .error, cnt .warning, cnt .informational, ?_⟩
    have hp := (levels_perm hall).length_eq
    simp only [List.length_append] at hp
    rw [cnt .unknown] at hp
    constructor
    · intro hsum f hf h3
      have h0 : fs.countP (fun f => rank f == sevRank .unknown) = 0 := by omega
      rw [List.countP_eq_zero] at h0
      exact h0 f hf (by simp [h3, sevRank])
    · intro hn
      have h0 : fs.countP (fun f => rank f == sevRank .unknown) = 0 := by
        rw [List.countP_eq_zero]
        intro f hf
        simpa [sevRank] using hn f hf
      omega
  all_goals cases h

/-! ### C47 -/

/-- all failures of the test cases -/
def allFailures : List (String × CaseBody) → List (List Char × List Char)
  | [] => []
  | (_, .failures fs) :: r => fs ++ allFailures r
  | (_, .skipped _) :: r => allFailures r

/-- **C47** (exactly which). The failures are those of the enabled rules, rule by rule: a finding is reported once for each
enabled rule of the collection with the id of its rule. -/
theorem C47_failures (shown : Message → List Char) (enabled : RuleInfo → Bool) (fs : List Finding) (rs : List ListedRule) :
    allFailures (junitCases shown enabled fs rs) =
      ((rs.filter (fun r => enabled r.rule)).flatMap (fun r => fs.filter (fun f => f.rule.id == r.rule.id))).map
        (fun f => (failureText shown f, messageText shown f.message)) := by
  induction rs with
  | nil => simp [junitCases, allFailures]
  | cons r rs ih =>
    rw [junitCases]
    split
    · rename_i h
      rw [allFailures, ih, ruleFailures, List.filter_cons, if_pos h, List.flatMap_cons, List.map_append]
    · rename_i h
      rw [List.filter_cons, if_neg h]
      split
      · exact ih
      · rw [allFailures, ih]

theorem partition_perm {fs : List Finding} : ∀ {ids : List String}, ids.Nodup → (∀ f ∈ fs, f.rule.id ∈ ids) →
    (ids.flatMap (fun i => fs.filter (fun f => f.rule.id == i))).Perm fs := by
  intro ids
  induction ids generalizing fs with
  | nil =>
    intro _ h
    cases fs with
    | nil => simp
    | cons f fs => exact absurd (h f (by simp)) (by simp)
  | cons i ids ih =>
    intro hn h
    rw [List.nodup_cons] at hn
    have h2 := ih (fs := fs.filter (fun f => !(f.rule.id == i))) hn.2 (by
      intro f hf
      rw [List.mem_filter] at hf
      have := h f hf.1
      rcases List.mem_cons.1 this with he | hm
      · simp [he] at hf
      · exact hm)
    have he : (ids.flatMap fun j => (fs.filter (fun f => !(f.rule.id == i))).filter (fun f => f.rule.id == j)) =
        ids.flatMap (fun j => fs.filter (fun f => f.rule.id == j)) := by
      apply List.flatMap_congr
      intro j hj
      rw [List.filter_filter]
      apply List.filter_congr
      intro f _
      by_cases hfj : f.rule.id = j
      · have : j ≠ i := by rintro rfl; exact hn.1 hj
        simp [hfj, this]
      · simp [hfj]
    rw [he] at h2
    rw [List.flatMap_cons]
    exact (List.Perm.append_left _ h2).trans (List.filter_append_perm _ _)

/-- **C47** (every finding once). If the rule of every finding is an enabled rule of the collection and ids are not shared,
every finding is reported exactly once. -/
theorem C47_once_partial {shown : Message → List Char} {enabled : RuleInfo → Bool} {fs : List Finding} {rs : List ListedRule}
    (hn : ((rs.filter (fun r => enabled r.rule)).map (fun r => r.rule.id)).Nodup)
    (h : ∀ f ∈ fs, ∃ r ∈ rs, enabled r.rule = true ∧ r.rule.id = f.rule.id) :
    (allFailures (junitCases shown enabled fs rs)).Perm (fs.map (fun f => (failureText shown f, messageText shown f.message))) := by
  rw [C47_failures]
  apply List.Perm.map
  have := partition_perm (fs := fs) hn (by
    intro f hf
    obtain ⟨r, hr, he, hid⟩ := h f hf
    exact List.mem_map.2 ⟨r, List.mem_filter.2 ⟨hr, he⟩, hid⟩)
  rwa [List.flatMap_map] at this

/-- The test cases are the rules of the collection in its order, named by their identifiers, except rules that are
turned off and have none; a rule is skipped exactly if it is turned off, with the reason. -/
theorem C47_cases (shown : Message → List Char) (enabled : RuleInfo → Bool) (fs : List Finding) (rs : List ListedRule) :
    (junitCases shown enabled fs rs).map Prod.fst =
      (rs.filter (fun r => enabled r.rule || r.rule.id != "")).map (fun r => r.rule.id ++ " " ++ r.shortdesc) ∧
    ∀ name why, (name, CaseBody.skipped why) ∈ junitCases shown enabled fs rs ↔
      ∃ r ∈ rs, enabled r.rule = false ∧ r.rule.id ≠ "" ∧ name = r.rule.id ++ " " ++ r.shortdesc ∧
        (r.rule.experimental = true → why = "Experimental rule - not enabled") ∧
        (r.rule.experimental = false → why = "Ignored rule") := by
  induction rs with
  | nil => simp [junitCases]
  | cons r rs ih =>
    obtain ⟨ih1, ih2⟩ := ih
    rw [junitCases]
    by_cases he : enabled r.rule = true
    · rw [if_pos he]
      refine ⟨by simp [he, ih1], ?_⟩
      intro name why
      simp [ih2, he]
    · rw [if_neg he]
      rw [Bool.not_eq_true] at he
      by_cases hid : r.rule.id = ""
      · rw [if_pos hid]
        refine ⟨by simp [he, hid, ih1], ?_⟩
        intro name why
        simp [ih2, hid]
      · rw [if_neg hid]
        refine ⟨by simp [he, hid, ih1], ?_⟩
        intro name why
        rw [List.mem_cons, ih2]
        simp only [Prod.mk.injEq, CaseBody.skipped.injEq, List.mem_cons, exists_eq_or_imp]
        refine or_congr ?_ Iff.rfl
        cases r.rule.experimental <;> simp [he, hid]

/-- the claim in full: with a collection of rules, every finding is reported exactly once -/
def C47_statement : Prop := ∀ (shown : Message → List Char) (enabled : RuleInfo → Bool) (rs : List ListedRule) (fs : List Finding),
  ∃ cases, junit shown enabled (some rs) fs = some cases ∧
    (allFailures cases).Perm (fs.map (fun f => (failureText shown f, messageText shown f.message)))

/-- **C47** (violated). The rules `E0000`, `E0001` and `E0002` are in no collection (`load_plugins` skips `__init__.py`), so a
template that cannot be parsed appears without failures. -/
theorem C47_parse_error_violated : ∃ (rs : List ListedRule) (f : Finding), f.rule = parseErrorRule ∧ rs ≠ [] ∧
    ∀ shown, ∃ cases, junit shown (fun _ => true) (some rs) [f] = some cases ∧ allFailures cases = [] :=
  ⟨[⟨{ id := "E1001" }, "Basic CloudFormation Template Configuration"⟩],
   { line := 1, col := 1, lineEnd := 1, colEnd := 2, filename := "a.yaml", rule := parseErrorRule, description := "", shortdesc := "",
     source := "", message := .text "bad", path := none }, rfl, by simp,
   fun shown => ⟨_, rfl, by
     simp only [junitCases, ruleFailures, allFailures, parseErrorRule, if_true, List.append_nil]
     rw [List.filter_eq_nil_iff.2]
     · rfl
     · simp⟩⟩

theorem C47_violated : ¬ C47_statement := by
  intro h
  obtain ⟨rs, f, _, _, hv⟩ := C47_parse_error_violated
  obtain ⟨cases, hc, hp⟩ := h (fun _ => []) (fun _ => true) rs [f]
  obtain ⟨cases', hc', he⟩ := hv (fun _ => [])
  rw [hc] at hc'
  cases hc'
  rw [he] at hp
  have := hp.length_eq
  simp at this

/-- if the last template could not be read there are no rules, and nothing is reported for any template -/
theorem C47_no_rules (shown : Message → List Char) (enabled : RuleInfo → Bool) (fs : List Finding) :
    junit shown enabled none fs = none ∧ junit shown enabled (some []) fs = none := ⟨rfl, rfl⟩

/-- the hypotheses are met -/
example : ∃ (f g : Finding) (rs : List ListedRule), f.filename ≠ g.filename ∧
    ((rs.filter (fun _ => true)).map (fun r => r.rule.id)).Nodup ∧
    (∀ x ∈ [f, g], ∃ r ∈ rs, r.rule.id = x.rule.id) ∧ ∀ x ∈ [f, g], x.rule.id ≠ "" :=
  ⟨{ (default : Finding) with filename := "a", rule := { id := "E1" } }, { (default : Finding) with filename := "b", rule := { id := "W2" } },
   [⟨{ id := "E1" }, "x"⟩, ⟨{ id := "W2" }, "y"⟩], by decide, by decide, by decide, by decide⟩

end CfnLint
