import Verif.Spec.Plugins
import Verif.Lemmas.Split
import Mathlib.Data.List.Nodup
/-
C123: the rules that are loaded.
-/
namespace CfnLint
open Spec

variable {R : Type}

theorem isRuleClass_iff {c : PyClass R} : isRuleClass c = true ↔ IsRule c := by
  unfold isRuleClass IsRule
  rw [List.any_eq_true]
  constructor
  · rintro ⟨⟨m, n⟩, hm, h⟩
    simp only [Bool.and_eq_true, decide_eq_true_eq, beq_iff_eq, List.mem_cons, List.not_mem_nil, or_false] at h
    obtain ⟨rfl | rfl, rfl⟩ := h
    · exact .inl hm
    · exact .inr hm
  · rintro (h | h)
    · exact ⟨_, h, by simp⟩
    · exact ⟨_, h, by simp⟩

/-- the loop gives the rules in the order of the members -/
theorem createLoop_ok : ∀ {ms : Members R}, (∀ n c, (n, some c) ∈ ms → IsRule c → ∃ r, c.create = .ok r) →
    ∃ cs : List (String × R), createLoop ms = .ok (cs.map Prod.snd) ∧ (cs.map Prod.fst).Sublist (ms.map Prod.fst) ∧
      (∀ n r, (n, r) ∈ cs → ∃ c, (n, some c) ∈ ms ∧ IsRule c ∧ c.create = .ok r) ∧ ∀ n c, (n, some c) ∈ ms → IsRule c → ∃ r, (n, r) ∈ cs ∧ c.create = .ok r
  | [], _ => ⟨[], rfl, List.Sublist.refl _, fun n r h => (by cases h), fun n c h => (by cases h)⟩
  | (n, none) :: ms, h => by
    obtain ⟨cs, h1, h2, h3, h4⟩ := createLoop_ok (ms := ms) (fun n c hm => h n c (List.mem_cons_of_mem _ hm))
    refine ⟨cs, h1, h2.cons _, fun n r hm => ?_, fun n c hm => ?_⟩
    · obtain ⟨c, hc, r⟩ := h3 n r hm
      exact ⟨c, List.mem_cons_of_mem _ hc, r⟩
    · rcases List.mem_cons.1 hm with e | hm
      · cases e
      · exact h4 n c hm
  | (n, some c) :: ms, h => by
    obtain ⟨cs, h1, h2, h3, h4⟩ := createLoop_ok (ms := ms) (fun n c hm => h n c (List.mem_cons_of_mem _ hm))
    rw [createLoop]
    by_cases hr : IsRule c
    · obtain ⟨r, hc⟩ := h n c List.mem_cons_self hr
      rw [if_pos (isRuleClass_iff.2 hr), hc, h1]
      refine ⟨(n, r) :: cs, rfl, h2.cons_cons _, fun n' r' hm => ?_, fun n' c' hm hr' => ?_⟩
      · rcases List.mem_cons.1 hm with e | hm
        · cases e
          exact ⟨c, List.mem_cons_self, hr, hc⟩
        · obtain ⟨c', hc', r'⟩ := h3 _ _ hm
          exact ⟨c', List.mem_cons_of_mem _ hc', r'⟩
      · rcases List.mem_cons.1 hm with e | hm
        · cases e
          exact ⟨r, List.mem_cons_self, hc⟩
        · obtain ⟨r', hm', e⟩ := h4 _ _ hm hr'
          exact ⟨r', List.mem_cons_of_mem _ hm', e⟩
    · rw [if_neg (fun h => hr (isRuleClass_iff.1 h))]
      refine ⟨cs, h1, h2.cons _, fun n' r' hm => ?_, fun n' c' hm hr' => ?_⟩
      · obtain ⟨c', hc', r'⟩ := h3 _ _ hm
        exact ⟨c', List.mem_cons_of_mem _ hc', r'⟩
      · rcases List.mem_cons.1 hm with e | hm
        · cases e
          exact absurd hr' hr
        · exact h4 _ _ hm hr'

/-- the rules of a module are determined -/
theorem makes_unique {ms : Members R} (hn : (ms.map Prod.fst).Nodup) {rs rs' : List R} (h : Makes ms rs) (h' : Makes ms rs') : rs = rs' := by
  obtain ⟨cs, rfl, a1, a2, a3, a4⟩ := h
  obtain ⟨cs', rfl, b1, b2, b3, b4⟩ := h'
  have hdet : ∀ n c c', (n, some c) ∈ ms → (n, some c') ∈ ms → c = c' := by
    intro n c c' h h'
    have := List.inj_on_of_nodup_map hn h h' rfl
    cases this
    rfl
  have hsub : ∀ (cs cs' : List (String × R)), (∀ n r, (n, r) ∈ cs → ∃ c, (n, some c) ∈ ms ∧ IsRule c ∧ c.create = .ok r) →
      (∀ n c, (n, some c) ∈ ms → IsRule c → ∃ r, (n, r) ∈ cs' ∧ c.create = .ok r) → ∀ x, x ∈ cs → x ∈ cs' := by
    rintro cs cs' h h' ⟨n, r⟩ hm
    obtain ⟨c, hc, hr, e⟩ := h n r hm
    obtain ⟨r', hm', e'⟩ := h' n c hc hr
    rw [e] at e'
    cases e'
    exact hm'
  have hperm : cs.Perm cs' := (List.perm_ext_iff_of_nodup (List.Nodup.of_map _ a1) (List.Nodup.of_map _ b1)).2 (fun x => ⟨hsub _ _ a3 b4 x, hsub _ _ b3 a4 x⟩)
  congr 1
  rw [List.pairwise_map] at a2 b2
  refine hperm.eq_of_pairwise ?_ a2 b2
  rintro ⟨n, r⟩ ⟨n', r'⟩ hm hm' h1 h2
  have e : n = n' := String.le_antisymm h1 h2
  subst e
  have := List.inj_on_of_nodup_map a1 hm (hperm.mem_iff.2 hm') rfl
  exact this

/-- **C123**: from a module one rule is made for each class that is a rule, in the order of the names: also for classes that the module only imports. -/
theorem C123_classes {ms : Members R} (hn : (ms.map Prod.fst).Nodup) (h : ∀ n c, (n, some c) ∈ ms → IsRule c → ∃ r, c.create = .ok r) :
    ∃ rs, createRules ms = .ok rs ∧ Makes ms rs := by
  unfold createRules
  have hp : (ms.mergeSort (fun a b => strLe a.1 b.1)).Perm ms := List.mergeSort_perm _ _
  obtain ⟨cs, h1, h2, h3, h4⟩ := createLoop_ok (ms := ms.mergeSort (fun a b => strLe a.1 b.1)) (fun n c hm => h n c (hp.mem_iff.1 hm))
  have hs : (ms.mergeSort (fun a b => strLe a.1 b.1)).Pairwise (fun a b => strLe a.1 b.1 = true) :=
    List.pairwise_mergeSort (fun a b c => strLe_trans a.1 b.1 c.1) (fun a b => strLe_total a.1 b.1) ms
  refine ⟨_, h1, cs, rfl, h2.nodup ((hp.map Prod.fst).nodup_iff.2 hn), ?_, fun n r hm => ?_, fun n c hm => h4 n c (hp.mem_iff.2 hm)⟩
  · refine List.Pairwise.sublist h2 ?_
    rw [List.pairwise_map]
    exact hs.imp (fun h => of_decide_eq_true h)
  · obtain ⟨c, hc, r⟩ := h3 n r hm
    exact ⟨c, hp.mem_iff.1 hc, r⟩

theorem makes_createRules {ms : Members R} (hn : (ms.map Prod.fst).Nodup) {rs : List R} (h : Makes ms rs) : createRules ms = .ok rs := by
  obtain ⟨rs', h1, h2⟩ := C123_classes hn (fun n c hm hr => by
    obtain ⟨cs, -, -, -, -, h4⟩ := h
    obtain ⟨r, -, e⟩ := h4 n c hm hr
    exact ⟨r, e⟩)
  rw [h1, makes_unique hn h2 h]

theorem isPluginFile_iff {name : String} : isPluginFile name = true ↔ PluginName name := by
  unfold isPluginFile PluginName
  cases hn : name.toList with
  | nil => simp
  | cons c cs =>
    dsimp only
    rw [Bool.and_eq_true, Bool.or_eq_true, decide_eq_true_eq, decide_eq_true_eq, List.isSuffixOf_iff_suffix]
    constructor
    · rintro ⟨hc, t, ht⟩
      exact ⟨c, t, by rw [ht], hc⟩
    · rintro ⟨c', t, e, hc⟩
      cases e
      exact ⟨hc, t, rfl⟩

theorem dropPy_stem : ∀ {l : List Char}, '.' ∉ l → dropPy (l ++ ".py".toList) = l
  | [], _ => by decide
  | c :: l, h => by
    rw [List.mem_cons, not_or] at h
    have hne : c ≠ '.' := fun e => h.1 e.symm
    rw [List.cons_append, dropPy.eq_2 _ _ (by
      rintro cs e
      exact fun _ => hne e), dropPy_stem h.2]

theorem takeWhile_all {α : Type} {p : α → Bool} : ∀ {l : List α}, (∀ c ∈ l, p c = true) → l.takeWhile p = l
  | [], _ => rfl
  | c :: l, h => by rw [List.takeWhile_cons, if_pos (h c List.mem_cons_self), takeWhile_all (fun c hc => h c (List.mem_cons_of_mem _ hc))]

theorem afterLastDot_self {l : List Char} (h : '.' ∉ l) : afterLastDot l = l := by
  unfold afterLastDot
  have : l.reverse.takeWhile (fun c => decide (c ≠ '.')) = l.reverse := by
    refine takeWhile_all (fun c hc => ?_)
    rw [decide_eq_true_eq]
    rintro rfl
    exact h (List.mem_reverse.1 hc)
  rw [this, List.reverse_reverse]

theorem findSpec_plain {files : List String} {subs : List (String × Folder)} {root : List String} {f : String} (hf : f ∈ files) {stem : List Char} (he : f.toList = stem ++ ".py".toList)
    (hd : '.' ∉ stem) (hp : ∀ fs ss, (String.ofList stem, Folder.folder fs ss) ∈ subs → "__init__.py" ∉ fs) :
    findSpec files subs root (String.ofList (dropPy f.toList)) = .file (root ++ [f]) := by
  have hf' : String.ofList stem ++ ".py" = f := by
    rw [← String.toList_inj, String.toList_append, String.toList_ofList, he]
  unfold findSpec
  rw [he, dropPy_stem hd, String.toList_ofList, afterLastDot_self hd]
  dsimp only
  rw [if_neg, if_pos (by rw [hf']; exact List.contains_iff_mem.2 hf), hf']
  rw [List.any_eq_true]
  rintro ⟨⟨n, d⟩, hm, h⟩
  rw [Bool.and_eq_true, beq_iff_eq] at h
  obtain ⟨rfl, h⟩ := h
  cases d with
  | unreadable => cases h
  | folder fs ss => exact hp fs ss hm (List.contains_iff_mem.1 h)

theorem pluginAt_iff {files : List String} {subs : List (String × Folder)} {p : List String} :
    PluginAt (.folder files subs) p ↔ (∃ f, f ∈ files ∧ PluginName f ∧ p = [f]) ∨ ∃ n d q, (n, d) ∈ subs ∧ PluginAt d q ∧ p = n :: q := by
  constructor
  · rintro ⟨h, q, f, e, hf⟩
    cases h with
    | @here _ _ f' hm =>
      have : f = f' := by
        have := congrArg List.getLast? e
        simpa using this.symm
      subst this
      exact .inl ⟨_, hm, hf, rfl⟩
    | sub hm h =>
      refine .inr ⟨_, _, _, hm, ⟨h, ?_⟩, rfl⟩
      cases q with
      | nil =>
        simp at e
        obtain ⟨rfl, rfl⟩ := e
        cases h
      | cons a q =>
        simp at e
        exact ⟨q, f, e.2, hf⟩
  · rintro (⟨f, hm, hf, rfl⟩ | ⟨n, d, q, hm, ⟨h, q', f, rfl, hf⟩, rfl⟩)
    · exact ⟨.here hm, [], f, rfl, hf⟩
    · exact ⟨.sub hm h, n :: q', f, rfl, hf⟩

theorem loadFiles_ok {one : String → Except PluginErr (List R)} {g : String → List R} : ∀ {fs : List String}, (∀ f ∈ fs, one f = .ok (g f)) → loadFiles one fs = .ok (fs.flatMap g)
  | [], _ => rfl
  | f :: fs, h => by
    rw [loadFiles, h f List.mem_cons_self, loadFiles_ok (fun f hf => h f (List.mem_cons_of_mem _ hf))]
    rfl

mutual
theorem loadFolder_spec {run : List String → Except PluginErr (Members R)} {rules : List String → List R} : ∀ (d : Folder), Listed d → PlainPlugins d → ∀ root : List String,
    (∀ p, PluginAt d p → ∃ ms, run (root ++ p) = .ok ms ∧ (ms.map Prod.fst).Nodup ∧ Makes ms (rules (root ++ p))) →
    ∃ ps : List (List String), ps.Nodup ∧ (∀ p, p ∈ ps ↔ PluginAt d p) ∧ loadFolder run root d = .ok (ps.flatMap (fun p => rules (root ++ p)))
  | .unreadable, hl, _, _, _ => by
    obtain ⟨_, _, e, _⟩ := hl _ .here
    cases e
  | .folder files subs, hl, hp, root, h => by
    obtain ⟨_, _, e, hn1, hn2⟩ := hl _ .here
    cases e
    obtain ⟨ps, h1, h2, h3⟩ := loadFolders_spec subs (fun n d hm => ⟨fun e he => hl e (.sub hm he), fun fs ss he => hp fs ss (.sub hm he)⟩) hn2 root (by
      intro n d q hm hq
      exact h (n :: q) (pluginAt_iff.2 (.inr ⟨n, d, q, hm, hq, rfl⟩)))
    rw [loadFolder, loadFiles_ok (g := fun f => rules (root ++ [f])) (by
      intro f hf
      rw [List.mem_filter, isPluginFile_iff] at hf
      obtain ⟨stem, e1, e2, e3⟩ := hp files subs .here f hf.1 hf.2
      unfold loadFile
      rw [findSpec_plain hf.1 e1 e2 e3]
      obtain ⟨ms, a1, a2, a3⟩ := h [f] (pluginAt_iff.2 (.inl ⟨f, hf.1, hf.2, rfl⟩))
      dsimp only
      rw [a1]
      exact makes_createRules a2 a3), h3]
    refine ⟨(files.filter isPluginFile).map (fun f => [f]) ++ ps, ?_, fun p => ?_, ?_⟩
    · rw [List.nodup_append]
      refine ⟨(hn1.filter _).map (fun a b e => by cases e; rfl), h1, ?_⟩
      intro a ha b hb e
      subst e
      obtain ⟨f, -, rfl⟩ := List.mem_map.1 ha
      obtain ⟨n, d, q, -, ⟨-, q', f', rfl, -⟩, e⟩ := (h2 _).1 hb
      simp at e
    · rw [List.mem_append, h2, pluginAt_iff]
      refine or_congr ?_ Iff.rfl
      rw [List.mem_map]
      constructor
      · rintro ⟨f, hf, rfl⟩
        rw [List.mem_filter, isPluginFile_iff] at hf
        exact ⟨f, hf.1, hf.2, rfl⟩
      · rintro ⟨f, hf, hn, rfl⟩
        exact ⟨f, List.mem_filter.2 ⟨hf, isPluginFile_iff.2 hn⟩, rfl⟩
    · rw [List.flatMap_append, List.flatMap_map]
theorem loadFolders_spec {run : List String → Except PluginErr (Members R)} {rules : List String → List R} : ∀ (subs : List (String × Folder)),
    (∀ n d, (n, d) ∈ subs → Listed d ∧ PlainPlugins d) → (subs.map Prod.fst).Nodup → ∀ root : List String,
    (∀ n d q, (n, d) ∈ subs → PluginAt d q → ∃ ms, run (root ++ n :: q) = .ok ms ∧ (ms.map Prod.fst).Nodup ∧ Makes ms (rules (root ++ n :: q))) →
    ∃ ps : List (List String), ps.Nodup ∧ (∀ p, p ∈ ps ↔ ∃ n d q, (n, d) ∈ subs ∧ PluginAt d q ∧ p = n :: q) ∧
      loadFolders run root subs = .ok (ps.flatMap (fun p => rules (root ++ p)))
  | [], _, _, _, _ => ⟨[], List.nodup_nil, fun p => ⟨fun h => (by cases h), fun ⟨_, _, _, h, _⟩ => (by cases h)⟩, rfl⟩
  | (n, d) :: subs, hl, hn, root, h => by
    rw [List.map_cons, List.nodup_cons] at hn
    obtain ⟨ps, h1, h2, h3⟩ := loadFolder_spec (run := run) (rules := rules) d (hl n d List.mem_cons_self).1 (hl n d List.mem_cons_self).2 (root ++ [n]) (by
      intro p hp
      have := h n d p List.mem_cons_self hp
      simpa only [List.append_assoc, List.cons_append, List.nil_append] using this)
    obtain ⟨qs, k1, k2, k3⟩ := loadFolders_spec subs (fun n d hm => hl n d (List.mem_cons_of_mem _ hm)) hn.2 root (fun n d q hm => h n d q (List.mem_cons_of_mem _ hm))
    rw [loadFolders, h3, k3]
    refine ⟨ps.map (fun p => n :: p) ++ qs, ?_, fun p => ?_, ?_⟩
    · rw [List.nodup_append]
      refine ⟨h1.map (fun a b e => by cases e; rfl), k1, ?_⟩
      intro a ha b hb e
      subst e
      obtain ⟨q, -, rfl⟩ := List.mem_map.1 ha
      obtain ⟨n', d', q', hm, -, e⟩ := (k2 _).1 hb
      cases e
      exact hn.1 (List.mem_map.2 ⟨_, hm, rfl⟩)
    · rw [List.mem_append, k2, List.mem_map]
      constructor
      · rintro (⟨q, hq, rfl⟩ | ⟨n', d', q, hm, r⟩)
        · exact ⟨n, d, q, List.mem_cons_self, (h2 q).1 hq, rfl⟩
        · exact ⟨n', d', q, List.mem_cons_of_mem _ hm, r⟩
      · rintro ⟨n', d', q, hm, hq, rfl⟩
        rcases List.mem_cons.1 hm with e | hm
        · cases e
          exact .inl ⟨q, (h2 q).2 hq, rfl⟩
        · exact .inr ⟨n', d', q, hm, hq, rfl⟩
    · rw [List.flatMap_append, List.flatMap_map]
      simp only [List.append_assoc, List.cons_append, List.nil_append]
end

/-- **C123**, in full: every file with rules is loaded, once -/
def C123_loads_statement : Prop :=
  ∀ (R : Type) (run : List String → Except PluginErr (Members R)) (rules : List String → List R) (d : Folder), Listed d →
    (∀ p, PluginAt d p → ∃ ms, run p = .ok ms ∧ (ms.map Prod.fst).Nodup ∧ Makes ms (rules p)) →
    ∃ rs, loadFolder run [] d = .ok rs ∧ ∀ ps : List (List String), ps.Nodup → (∀ p, p ∈ ps ↔ PluginAt d p) → rs.Perm (ps.flatMap rules)

/-- **C123**: it holds for folders in which no file with rules has another dot in its name, or the name of a package beside it. -/
theorem C123_loads_partial {run : List String → Except PluginErr (Members R)} {rules : List String → List R} {d : Folder} (hl : Listed d) (hp : PlainPlugins d)
    (h : ∀ p, PluginAt d p → ∃ ms, run p = .ok ms ∧ (ms.map Prod.fst).Nodup ∧ Makes ms (rules p)) :
    ∃ rs, loadFolder run [] d = .ok rs ∧ ∀ ps : List (List String), ps.Nodup → (∀ p, p ∈ ps ↔ PluginAt d p) → rs.Perm (ps.flatMap rules) := by
  obtain ⟨qs, h1, h2, h3⟩ := loadFolder_spec (run := run) (rules := rules) d hl hp [] h
  refine ⟨_, h3, fun ps k1 k2 => ?_⟩
  simp only [List.nil_append]
  exact ((List.perm_ext_iff_of_nodup h1 k1).2 (fun p => by rw [h2, k2])).flatMap_right rules

/-- **C123**: a file whose name has another dot is not loaded. -/
theorem C123_loads_violated : ¬ C123_loads_statement := by
  intro h
  have hat : ∀ p, PluginAt (.folder ["a.b.py"] []) p ↔ p = ["a.b.py"] := by
    intro p
    rw [pluginAt_iff]
    constructor
    · rintro (⟨f, hf, -, rfl⟩ | ⟨n, d, q, hm, -⟩)
      · rw [List.mem_singleton.1 hf]
      · cases hm
    · rintro rfl
      exact .inl ⟨_, List.mem_cons_self, ⟨'a', ".b".toList, by decide, by decide⟩, rfl⟩
  obtain ⟨rs, h1, h2⟩ := h Unit (fun _ => .ok [("C", some ⟨[("cfnlint.rules", "CloudFormationLintRule")], .ok ()⟩)]) (fun _ => [()]) (.folder ["a.b.py"] []) (by
    intro e he
    cases he with
    | here => exact ⟨_, _, rfl, by simp, by simp⟩
    | sub hm => cases hm) (by
    intro p _
    refine ⟨_, rfl, by simp, [("C", ())], rfl, by simp, by simp, fun n r hm => ?_, fun n c hm _ => ?_⟩
    · cases List.mem_singleton.1 hm
      exact ⟨_, List.mem_singleton.2 rfl, .inr (by simp), rfl⟩
    · cases List.mem_singleton.1 hm
      exact ⟨(), List.mem_singleton.2 rfl, rfl⟩)
  have h3 := h2 [["a.b.py"]] (by simp) (fun p => by rw [hat, List.mem_singleton])
  have h4 : loadFolder (R := Unit) (fun _ => .ok [("C", some ⟨[("cfnlint.rules", "CloudFormationLintRule")], .ok ()⟩)]) [] (.folder ["a.b.py"] []) = .ok [] := by
    rw [loadFolder, loadFolders]
    have hf : (["a.b.py"].filter isPluginFile) = ["a.b.py"] := by decide +kernel
    have hs : findSpec ["a.b.py"] [] [] (String.ofList (dropPy "a.b.py".toList)) = .nothing := by decide +kernel
    rw [hf, loadFiles, loadFile, hs]
    rfl
  rw [h4] at h1
  cases h1
  have := h3.length_eq
  simp at this

theorem dropPy_dotted : ∀ {pre tail : List Char}, '.' ∉ pre → '.' ∉ tail → ¬ "py".toList <+: tail → dropPy (pre ++ '.' :: (tail ++ ".py".toList)) = pre ++ '.' :: tail
  | [], tail, _, h2, h3 => by
    rw [List.nil_append, List.nil_append, dropPy.eq_2, dropPy_stem h2]
    rintro cs - e
    apply h3
    cases tail with
    | nil => simp at e
    | cons a tail =>
      cases tail with
      | nil => simp at e
      | cons b tail =>
        simp only [List.cons_append, List.cons.injEq] at e
        obtain ⟨rfl, rfl, -⟩ := e
        exact ⟨tail, rfl⟩
  | c :: pre, tail, h1, h2, h3 => by
    rw [List.mem_cons, not_or] at h1
    rw [List.cons_append, dropPy.eq_2 _ _ (by
      rintro cs e
      exact fun _ => h1.1 e.symm), dropPy_dotted h1.2 h2 h3]
    rfl

theorem takeWhile_until {l : List Char} (h : '.' ∉ l) (pre : List Char) : (l ++ '.' :: pre).takeWhile (fun c => decide (c ≠ '.')) = l := by
  induction l with
  | nil => rfl
  | cons c l ih =>
    rw [List.mem_cons, not_or] at h
    rw [List.cons_append, List.takeWhile_cons, if_pos (by simpa using fun e => h.1 e.symm), ih h.2]

theorem afterLastDot_dotted (pre : List Char) {tail : List Char} (h : '.' ∉ tail) : afterLastDot (pre ++ '.' :: tail) = tail := by
  unfold afterLastDot
  have hr : (pre ++ '.' :: tail).reverse = tail.reverse ++ '.' :: pre.reverse := by simp
  rw [hr, takeWhile_until (fun hm => h (List.mem_reverse.1 hm)), List.reverse_reverse]

/-- **C123**: of a name with another dot only what follows the last one counts: another file is loaded a second time, the file itself is passed over, or a folder of that name
without code makes the run fail. -/
theorem C123_dotted {run : List String → Except PluginErr (Members R)} {files : List String} {subs : List (String × Folder)} {root : List String} {f : String} {pre tail : List Char}
    (hf : f.toList = pre ++ '.' :: (tail ++ ".py".toList)) (h1 : '.' ∉ pre) (h2 : '.' ∉ tail) (h3 : ¬ "py".toList <+: tail)
    (hp : ∀ fs ss, (String.ofList tail, Folder.folder fs ss) ∈ subs → "__init__.py" ∉ fs) :
    (String.ofList tail ++ ".py" ∈ files → ∀ ms rs, run (root ++ [String.ofList tail ++ ".py"]) = .ok ms → (ms.map Prod.fst).Nodup → Makes ms rs → loadFile run files subs root f = .ok rs) ∧
    (String.ofList tail ++ ".py" ∉ files → String.ofList tail ∉ subs.map Prod.fst → loadFile run files subs root f = .ok []) ∧
    (String.ofList tail ++ ".py" ∉ files → String.ofList tail ∈ subs.map Prod.fst → ∃ e, loadFile run files subs root f = .error (.py e)) := by
  have hpk : (subs.any (fun s => s.1 == String.ofList tail && isPackage s.2)) ≠ true := by
    intro h
    rw [List.any_eq_true] at h
    obtain ⟨⟨n, d⟩, hm, h⟩ := h
    rw [Bool.and_eq_true, beq_iff_eq] at h
    obtain ⟨rfl, h⟩ := h
    cases d with
    | unreadable => cases h
    | folder fs ss => exact hp fs ss hm (List.contains_iff_mem.1 h)
  have hany : (subs.any (fun s => s.1 == String.ofList tail)) = true ↔ String.ofList tail ∈ subs.map Prod.fst := by
    rw [List.any_eq_true, List.mem_map]
    exact ⟨fun ⟨x, h, e⟩ => ⟨x, h, beq_iff_eq.1 e⟩, fun ⟨x, h, e⟩ => ⟨x, h, beq_iff_eq.2 e⟩⟩
  unfold loadFile findSpec
  rw [hf, dropPy_dotted h1 h2 h3, String.toList_ofList, afterLastDot_dotted pre h2]
  dsimp only
  rw [if_neg hpk]
  refine ⟨fun h ms rs a1 a2 a3 => ?_, fun h h' => ?_, fun h h' => ?_⟩
  · rw [if_pos (List.contains_iff_mem.2 h)]
    dsimp only
    rw [a1]
    exact makes_createRules a2 a3
  · rw [if_neg (fun hc => h (List.contains_iff_mem.1 hc)), if_neg (fun ha => h' (hany.1 ha))]
  · rw [if_neg (fun hc => h (List.contains_iff_mem.1 hc)), if_pos (hany.2 h')]
    exact ⟨_, rfl⟩

theorem loadFiles_error {one : String → Except PluginErr (List R)} {f : String} : ∀ {fs : List String}, f ∈ fs → (∃ e, one f = .error e) → ∃ e, loadFiles one fs = .error e
  | g :: fs, hm, h => by
    rw [loadFiles]
    cases ho : one g with
    | error e => exact ⟨e, rfl⟩
    | ok a =>
      rcases List.mem_cons.1 hm with e | hm
      · subst e
        obtain ⟨e, he⟩ := h
        rw [he] at ho
        cases ho
      · obtain ⟨e, he⟩ := loadFiles_error hm h
        dsimp only
        rw [he]
        exact ⟨e, rfl⟩

theorem loadFolders_error {run : List String → Except PluginErr (Members R)} {root : List String} {n : String} {d : Folder} : ∀ {subs : List (String × Folder)}, (n, d) ∈ subs →
    (∃ e, loadFolder run (root ++ [n]) d = .error e) → ∃ e, loadFolders run root subs = .error e
  | (n', d') :: subs, hm, h => by
    rw [loadFolders]
    cases ho : loadFolder run (root ++ [n']) d' with
    | error e => exact ⟨e, rfl⟩
    | ok a =>
      rcases List.mem_cons.1 hm with e | hm
      · cases e
        obtain ⟨e, he⟩ := h
        rw [he] at ho
        cases ho
      · obtain ⟨e, he⟩ := loadFolders_error hm h
        dsimp only
        rw [he]
        exact ⟨e, rfl⟩

/-- **C123**: a folder that cannot be listed, at any depth, makes the loading fail. -/
theorem C123_unreadable_raises {run : List String → Except PluginErr (Members R)} {d : Folder} (h : FolderIn d .unreadable) : ∀ root, ∃ e, loadFolder run root d = .error e := by
  generalize he : Folder.unreadable = u at h
  induction h with
  | here =>
    subst he
    exact fun root => ⟨_, by rw [loadFolder]⟩
  | @sub files subs n d e hm _ ih =>
    intro root
    rw [loadFolder]
    cases loadFiles (loadFile run files subs root) (files.filter isPluginFile) with
    | error e => exact ⟨e, rfl⟩
    | ok a =>
      obtain ⟨e, he⟩ := loadFolders_error hm (ih he (root ++ [n]))
      dsimp only
      rw [he]
      exact ⟨e, rfl⟩

/-- **C123**: the rules are those of the sources, one after the other. -/
theorem C123_sources {load : RuleSource R → Except PluginErr (List R)} {ss : List (RuleSource R)} {g : RuleSource R → List R} (h : ∀ s ∈ ss, load s = .ok (g s)) :
    gatherRules load ss = .ok (ss.flatMap g) := by
  induction ss with
  | nil => rfl
  | cons s ss ih =>
    rw [gatherRules, h s List.mem_cons_self, ih (fun s hs => h s (List.mem_cons_of_mem _ hs))]
    rfl

/-- **C123**: the first source that fails decides how the run ends: with status 1 where a file or a module is missing, with the exception itself otherwise. -/
theorem C123_sources_fail {load : RuleSource R → Except PluginErr (List R)} {ss rest : List (RuleSource R)} {s : RuleSource R} {g : RuleSource R → List R} (h : ∀ s ∈ ss, load s = .ok (g s))
    {e : PluginErr} (he : load s = .error e) :
    (e = .os ∨ e = .imp → gatherRules load (ss ++ s :: rest) = .error (.exit 1)) ∧ ∀ x, e = .py x → gatherRules load (ss ++ s :: rest) = .error (.py x) := by
  induction ss with
  | nil =>
    rw [List.nil_append, gatherRules, he]
    constructor
    · rintro (rfl | rfl) <;> rfl
    · rintro x rfl
      rfl
  | cons a ss ih =>
    obtain ⟨i1, i2⟩ := ih (fun s hs => h s (List.mem_cons_of_mem _ hs))
    rw [List.cons_append, gatherRules, h a List.mem_cons_self]
    constructor
    · intro h'
      dsimp only
      rw [i1 h']
    · intro x h'
      dsimp only
      rw [i2 x h']

/-- **C123**: a folder is loaded file by file, and a module by its classes. -/
theorem C123_source (run : List String → Except PluginErr (Members R)) :
    (∀ d, fromSource run (.folder d) = loadFolder run [] d) ∧ (∀ e, fromSource run (.byName (.error e)) = .error e) ∧
    ∀ ms rs, (ms.map Prod.fst).Nodup → Makes ms rs → fromSource run (.byName (.ok ms)) = .ok rs :=
  ⟨fun _ => rfl, fun _ => rfl, fun _ _ h1 h2 => makes_createRules h1 h2⟩

/-- the rules of a module -/
theorem makes_example : Makes (R := String) [("B", some ⟨[("x", "Y"), ("cfnlint.rules", "CloudFormationLintRule")], .ok "b"⟩), ("os", none), ("A", some ⟨[("cfnlint", "CloudFormationLintRule")], .ok "a"⟩),
    ("C", some ⟨[("x", "Y")], .error .imp⟩)] ["a", "b"] := by
  refine ⟨[("A", "a"), ("B", "b")], rfl, by simp, by simp, fun n r hm => ?_, fun n c hm hr => ?_⟩
  · simp only [List.mem_cons, Prod.mk.injEq, List.not_mem_nil, or_false] at hm
    rcases hm with ⟨rfl, rfl⟩ | ⟨rfl, rfl⟩
    · exact ⟨_, .tail _ (.tail _ (.head _)), .inl (by simp), rfl⟩
    · exact ⟨_, .head _, .inr (by simp), rfl⟩
  · simp only [List.mem_cons, Prod.mk.injEq, List.not_mem_nil, or_false, Option.some.injEq, reduceCtorEq, and_false, false_or] at hm
    rcases hm with ⟨rfl, rfl⟩ | ⟨rfl, rfl⟩ | ⟨rfl, rfl⟩
    · exact ⟨"b", by simp, rfl⟩
    · exact ⟨"a", by simp, rfl⟩
    · simp [IsRule] at hr

/-- the hypotheses are met -/
example : ∃ rs, loadFolder (R := String) (fun _ => .ok [("A", some ⟨[("cfnlint", "CloudFormationLintRule")], .ok "a"⟩)]) [] (.folder ["x.py", "_y.py"] [("sub", .folder ["z.py"] [])]) = .ok rs ∧
    ∀ ps : List (List String), ps.Nodup → (∀ p, p ∈ ps ↔ PluginAt (.folder ["x.py", "_y.py"] [("sub", .folder ["z.py"] [])]) p) → rs.Perm (ps.flatMap (fun _ => ["a"])) := by
  refine C123_loads_partial ?_ ?_ ?_
  · intro e he
    cases he with
    | here => exact ⟨_, _, rfl, by simp, by simp⟩
    | sub hm he =>
      cases List.mem_singleton.1 hm
      cases he with
      | here => exact ⟨_, _, rfl, by simp, by simp⟩
      | sub hm => cases hm
  · intro files subs he f hf hn
    rw [← isPluginFile_iff] at hn
    cases he with
    | here =>
      simp only [List.mem_cons, List.not_mem_nil, or_false] at hf
      rcases hf with rfl | rfl
      · exact ⟨['x'], by decide, by decide, by simp⟩
      · have : isPluginFile "_y.py" = false := by decide +kernel
        rw [this] at hn
        cases hn
    | sub hm he =>
      cases List.mem_singleton.1 hm
      cases he with
      | here =>
        simp only [List.mem_cons, List.not_mem_nil, or_false] at hf
        subst hf
        exact ⟨['z'], by decide, by decide, by simp⟩
      | sub hm => cases hm
  · intro p _
    refine ⟨_, rfl, by simp, [("A", "a")], rfl, by simp, by simp, fun n r hm => ?_, fun n c hm _ => ?_⟩
    · cases List.mem_singleton.1 hm
      exact ⟨_, List.mem_singleton.2 rfl, .inl (by simp), rfl⟩
    · cases List.mem_singleton.1 hm
      exact ⟨"a", List.mem_singleton.2 rfl, rfl⟩
example : ∃ e, loadFolder (R := String) (fun _ => .ok []) [] (.folder [] [("sub", .unreadable)]) = .error e :=
  C123_unreadable_raises (.sub List.mem_cons_self .here) []
example : loadFile (R := String) (fun _ => .ok []) ["a.b.py"] [] [] "a.b.py" = .ok [] :=
  (C123_dotted (pre := ['a']) (tail := ['b']) (by decide) (by decide) (by decide) (by decide) (by simp)).2.1 (by decide +kernel) (by simp)

end CfnLint
