import Verif.Lemmas.ConfigFiles
import Verif.Props.Config
/-
Property C98: the configuration files. Which files are read, what they may hold, and what becomes of it.
-/
namespace CfnLint
open Spec

/-- C98: a configuration is accepted exactly when it is a dictionary of known options with values of
their types. -/
theorem C98_accepted (v : Val) : validateConfig v = .ok () ↔ FileConfig v := validate_ok v ()

/-- C98: any other content is refused with an error of the validation. -/
theorem C98_error {v : Val} (h : ¬ FileConfig v) : validateConfig v = .error (.other "ValidationError") := by
  have := mt (C98_accepted v).1 h
  unfold validateConfig at this ⊢
  split <;> rename_i hc
  · exact absurd (if_pos hc) this
  · rfl

/-- C98: the configuration file of the project is the first of `.cfnlintrc.yaml`, `.cfnlintrc.yml` and
`.cfnlintrc` in the current directory that is there; there is none when none of them is. -/
theorem C98_project (m : Machine) :
    (FirstOf (fun p => (m.files p).isSome = true) ([".cfnlintrc.yaml", ".cfnlintrc.yml", ".cfnlintrc"].map (joinPath m.cwd)) m.findConfig.2 ∨
      (m.findConfig.2 = "" ∧ ∀ p ∈ ([".cfnlintrc.yaml", ".cfnlintrc.yml", ".cfnlintrc"].map (joinPath m.cwd)), ¬ (m.files p).isSome = true)) ∧
    ∀ p, FirstOf (fun p => (m.files p).isSome = true) ([".cfnlintrc.yaml", ".cfnlintrc.yml", ".cfnlintrc"].map (joinPath m.cwd)) p → m.findConfig.2 = p := by
  let there : String → Prop := fun p => (m.files p).isSome = true
  let names := [".cfnlintrc.yaml", ".cfnlintrc.yml", ".cfnlintrc"].map (joinPath m.cwd)
  show (FirstOf there names m.findConfig.2 ∨ (m.findConfig.2 = "" ∧ ∀ p ∈ names, ¬ there p)) ∧
    ∀ p, FirstOf there names p → m.findConfig.2 = p
  have e1 : rcName ++ ".yaml" = ".cfnlintrc.yaml" := by decide
  have e2 : rcName ++ ".yml" = ".cfnlintrc.yml" := by decide
  have hfirst : (FirstOf there names m.findConfig.2 ∨
      (m.findConfig.2 = "" ∧ ∀ p ∈ names, ¬ there p)) := by
    simp only [Machine.findConfig]
    rw [hasFile_abs m (projectFile_abs m)]
    unfold Machine.projectFile
    rw [hasFile_yaml, hasFile_yml, e1, e2]
    cases h1 : m.files (joinPath m.cwd ".cfnlintrc.yaml") with
    | some r =>
      left
      simp only [Option.isSome_some, if_true, h1]
      exact ⟨[], _, rfl, by simp [there, h1], by simp⟩
    | none =>
      cases h2 : m.files (joinPath m.cwd ".cfnlintrc.yml") with
      | some r =>
        left
        simp only [Option.isSome_none, Option.isSome_some, if_true, Bool.false_eq_true, if_false, h2]
        exact ⟨[_], _, rfl, by simp [there, h2], by simp [there, h1]⟩
      | none =>
        cases h3 : m.files (joinPath m.cwd ".cfnlintrc") with
        | some r =>
          left
          simp only [Option.isSome_none, Bool.false_eq_true, if_false, rcName, h3, Option.isSome_some,
            if_true]
          exact ⟨[_, _], [], rfl, by simp [there, h3], by simp [there, h1, h2]⟩
        | none =>
          right
          simp only [Option.isSome_none, Bool.false_eq_true, if_false, rcName, h3, true_and]
          simp [names, there, h1, h2, h3]
  refine ⟨hfirst, ?_⟩
  rintro p ⟨pre, post, hn, hp, hpre⟩
  rcases hfirst with ⟨pre', post', hn', hp', hpre'⟩ | ⟨_, hnone⟩
  · rw [hn] at hn'
    rcases List.append_eq_append_iff.1 hn' with ⟨c, hc, hd⟩ | ⟨c, hc, hd⟩
    · cases c with
      | nil => exact ((List.cons.inj hd).1).symm
      | cons x c =>
        have : p = x := (List.cons.inj hd).1
        exact absurd hp (hpre' p (by rw [hc, this]; simp))
    · cases c with
      | nil => exact (List.cons.inj hd).1
      | cons x c =>
        have : m.findConfig.2 = x := (List.cons.inj hd).1
        exact absurd hp' (hpre _ (by rw [hc, this]; simp))
  · exact absurd hp (hnone p (by rw [hn]; simp))

/-- C98: a file named on the command line is the only one read. It may be missing or empty: then nothing
is configured. Else it has to be accepted. -/
theorem C98_custom (m : Machine) (c : String) (hc : c ≠ "") (v : Val) :
    m.loadConfig (some c) = .ok v ↔ FileHolds (m.files (m.resolve c)) v ∧ FileConfig v :=
  loadConfig_custom m c hc v

/-- C98: without one, the files of the user and of the project are read and have to be accepted each by
itself, whatever the other holds. -/
theorem C98_both (m : Machine) (v : Val) : m.loadConfig none = .ok v ↔
    ∃ u p, FileHolds (m.files (joinPath m.home ".cfnlintrc")) u ∧ FileConfig u ∧
      FileHolds (m.files m.projectFile) p ∧ FileConfig p ∧ v = mergeVal u p :=
  loadFound_iff m v

/-- C98: the value at a path is that of the project where the project has one, and that of the user where
the project touches no part of the path. -/
theorem C98_values (m : Machine) (v u p : Val) (h : m.loadConfig none = .ok v)
    (hu : FileHolds (m.files (joinPath m.home ".cfnlintrc")) u) (hp : FileHolds (m.files m.projectFile) p)
    (path : List Key) (x : Val) :
    (x.isDict = false → getPath p path = some x → getPath v path = some x) ∧
    (getPath u path = some x → Untouched p path → getPath v path = some x) ∧
    (getPath v path = some x → (getPath u path).isSome = true ∨ (getPath p path).isSome = true) := by
  obtain ⟨u', p', h1, _, h3, _, rfl⟩ := (C98_both m v).1 h
  obtain rfl := holds_fun h1 hu
  obtain rfl := holds_fun h3 hp
  exact ⟨merge_project path _ _ x, merge_user path _ _ x, merge_only path _ _ x⟩

/-- C98: whatever is loaded is an accepted configuration; merging two files does not make a new one that
would be refused. -/
theorem C98_loaded (m : Machine) (custom : Option String) (v : Val)
    (h : m.loadConfig custom = .ok v) : FileConfig v := by
  have found : ∀ v, m.loadFound = .ok v → FileConfig v := by
    intro v h
    obtain ⟨u, p, _, hu, _, hp, rfl⟩ := (loadFound_iff m v).1 h
    exact merge_fileConfig hu hp
  cases custom with
  | none => exact found v h
  | some c =>
    by_cases hc : c = ""
    · subst hc; exact found v h
    · exact ((loadConfig_custom m c hc v).1 h).2

/-- C98: a refused or unreadable file stops the program, even when the file of the project would settle
every option. -/
theorem C98_refused (m : Machine) (w : Val)
    (hw : m.files (joinPath m.home ".cfnlintrc") = some (.ok w)) (ht : w.truthy = true)
    (hb : ¬ FileConfig w) : ∃ e, m.loadConfig none = .error e := by
  cases h : m.loadConfig none with
  | error e => exact ⟨e, rfl⟩
  | ok v =>
    obtain ⟨u, p, h1, h2, _⟩ := (C98_both m v).1 h
    have : u = w := holds_fun h1 (.inr ⟨w, hw, .inl ⟨ht, rfl⟩⟩)
    exact absurd (this ▸ h2) hb

/-- C98: nothing but the files named in the documentation matters. -/
theorem C98_only (m m' : Machine) (hh : m.home = m'.home) (hc : m.cwd = m'.cwd)
    (hu : m.files (joinPath m.home ".cfnlintrc") = m'.files (joinPath m.home ".cfnlintrc"))
    (hp : ∀ n ∈ [".cfnlintrc.yaml", ".cfnlintrc.yml", ".cfnlintrc"],
      m.files (joinPath m.cwd n) = m'.files (joinPath m.cwd n)) (v : Val) :
    m.loadConfig none = .ok v ↔ m'.loadConfig none = .ok v := by
  have e1 : rcName ++ ".yaml" = ".cfnlintrc.yaml" := by decide
  have e2 : rcName ++ ".yml" = ".cfnlintrc.yml" := by decide
  have a := hp ".cfnlintrc.yaml" (by simp)
  have b := hp ".cfnlintrc.yml" (by simp)
  have c := hp ".cfnlintrc" (by simp)
  have hpf : m.projectFile = m'.projectFile := by
    unfold Machine.projectFile
    rw [hasFile_yaml, hasFile_yml, hasFile_yaml, hasFile_yml, e1, e2, ← hc, a, b]
  have hpe : m.files m.projectFile = m'.files m.projectFile := by
    unfold Machine.projectFile
    rw [e1, e2]
    split
    · exact a
    · split
      · exact b
      · exact c
  rw [C98_both, C98_both, ← hh, hu, ← hpf, hpe]

/-- C98: likewise with a file named on the command line. -/
theorem C98_custom_only (m m' : Machine) (c : String) (hc : c ≠ "")
    (h : m.files (m.resolve c) = m'.files (m'.resolve c)) (v : Val) :
    m.loadConfig (some c) = .ok v ↔ m'.loadConfig (some c) = .ok v := by
  rw [C98_custom m c hc, C98_custom m' c hc, h]

theorem getOpt_named {kvs : List (Key × Val)} (h : ∀ kv ∈ kvs, ∃ n, kv.1 = .str n ∧ FileOption n kv.2)
    (n : String) : getOpt n (namedArgs (.dict kvs)) = .none ∨
      FileOption n (getOpt n (namedArgs (.dict kvs))) := by
  unfold getOpt
  cases hd : dlookup n (namedArgs (.dict kvs)) with
  | none => exact .inl rfl
  | some v =>
    right
    have := dlookup_mem hd
    simp only [namedArgs, List.mem_filterMap] at this
    obtain ⟨kv, hkv, he⟩ := this
    obtain ⟨k, w⟩ := kv
    obtain ⟨n', hk, ho⟩ := h _ hkv
    dsimp only at hk ho he
    subst hk
    cases he
    exact ho

/-- C98: an option taken from the configuration files has its documented type. -/
theorem C98_typed (m : Machine) (cli : String → Val) (s : Sources) (h : m.sources cli = .ok s)
    (n : String) : getOpt n s.file = .none ∨ FileOption n (getOpt n s.file) := by
  unfold Machine.sources at h
  cases hl : m.loadConfig (customFile cli) with
  | error e => simp only [bind, Except.bind] at h; rw [hl] at h; cases h
  | ok v =>
    simp only [bind, Except.bind] at h
    rw [hl] at h
    cases h
    obtain ⟨kvs, rfl, hk⟩ := C98_loaded m _ v hl
    exact getOpt_named hk n

/-- the options the program reads from the configuration file -/
def fileReadOptions : List String :=
  ["ignore_checks", "include_checks", "mandatory_checks", "include_experimental", "regions",
   "ignore_bad_template", "format", "templates", "ignore_templates", "append_rules", "override_spec",
   "configure_rules", "output_file"]

/-- C98, in full: every option the program looks for in the configuration file can be set there ("in that
file you can specify settings from the parameter section", README.md). -/
def C98_statement : Prop :=
  ∀ n ∈ fileReadOptions, ∃ v : Val, v.truthy = true ∧ FileConfig (.dict [(.str n, v)])

/-- C98 fails: `include_experimental` is looked for and refused by the schema. -/
theorem C98_settable_violated : ¬ C98_statement := by
  intro h
  obtain ⟨v, _, kvs, hk, ho⟩ := h "include_experimental" (by decide)
  cases hk
  obtain ⟨n, hn, hf⟩ := ho _ List.mem_cons_self
  cases hn
  generalize hx : "include_experimental" = n at hf
  cases hf with
  | names h _ => subst hx; exact absurd h (by decide)
  | path h => subst hx; exact absurd h (by decide)
  | rules h => exact absurd hx (by decide)

/-- C98, what holds of it: all but three of them can be set there, and the value takes effect where the
command line and the template leave the option alone. -/
theorem C98_settable_partial (n : String) (hn : n ∈ fileReadOptions)
    (hx : n ∉ ["include_experimental", "ignore_bad_template", "format"]) :
    ∃ v : Val, v.truthy = true ∧ FileConfig (.dict [(.str n, v)]) ∧
      ∀ (m : Machine) (cli : String → Val) (isT : Bool),
        m.files m.projectFile = some (.ok (.dict [(.str n, v)])) →
        m.files (joinPath m.home ".cfnlintrc") = none → (cli "config_file") = .none →
        (cli n).truthy = false →
        ∃ s, m.sources cli = .ok s ∧ getArgumentValue s n isT true = v := by
  have key : ∀ v : Val, v.truthy = true → FileOption n v →
      ∃ v : Val, v.truthy = true ∧ FileConfig (.dict [(.str n, v)]) ∧
      ∀ (m : Machine) (cli : String → Val) (isT : Bool),
        m.files m.projectFile = some (.ok (.dict [(.str n, v)])) →
        m.files (joinPath m.home ".cfnlintrc") = none → (cli "config_file") = .none →
        (cli n).truthy = false →
        ∃ s, m.sources cli = .ok s ∧ getArgumentValue s n isT true = v := by
    intro v hv ho
    have hf : FileConfig (.dict [(.str n, v)]) :=
      ⟨_, rfl, fun kv h => by rw [List.mem_singleton.1 h]; exact ⟨n, rfl, ho⟩⟩
    refine ⟨v, hv, hf, ?_⟩
    intro m cli isT hp hu hcf hcli
    have hl : m.loadConfig none = .ok (.dict [(.str n, v)]) := by
      refine (C98_both m _).2 ⟨.dict [], .dict [(.str n, v)], .inl ⟨hu, rfl⟩, ⟨[], rfl, by simp⟩,
        .inr ⟨_, hp, .inl ⟨rfl, rfl⟩⟩, hf, ?_⟩
      rw [mergeVal_dict]; rfl
    refine ⟨{ cli := cli, file := [(n, v)] }, ?_, ?_⟩
    · unfold Machine.sources
      simp only [customFile, hcf, bind, Except.bind, hl]
      rfl
    · unfold getArgumentValue
      have hn : Val.truthy .none = false := rfl
      simp [hcli, getOpt, dlookup, hv, hn]
  simp only [fileReadOptions, List.mem_cons, List.not_mem_nil, or_false] at hn
  rcases hn with rfl | rfl | rfl | rfl | rfl | rfl | rfl | rfl | rfl | rfl | rfl | rfl | rfl
  all_goals first
    | exact absurd (by decide) hx
    | exact key (.list [.str "x"]) rfl (.names (by decide) ⟨["x"], rfl⟩)
    | exact key (.str "x") rfl (.path (by decide))
    | exact key (.dict [(.str "E3012", .dict [])]) rfl (.rules ⟨_, rfl, fun kv h => by
        rw [List.mem_singleton.1 h]
        exact ⟨"E3012", rfl, ⟨"E3012".toList, by decide, .inl rfl⟩, [], rfl, by simp⟩⟩)

/-- C98: no configuration file has a say in the other three. -/
theorem C98_ignored (m : Machine) (cli : String → Val) (s : Sources) (h : m.sources cli = .ok s)
    (n : String) (hn : n ∈ ["include_experimental", "ignore_bad_template", "format"])
    (template : List (String × Val)) (isT : Bool) :
    getArgumentValue { s with template := template } n isT true =
      getArgumentValue { cli := cli, template := template } n isT false := by
  have hcli : s.cli = cli := by
    unfold Machine.sources at h
    cases hl : m.loadConfig (customFile cli) with
    | error e => simp only [bind, Except.bind] at h; rw [hl] at h; cases h
    | ok v => simp only [bind, Except.bind] at h; rw [hl] at h; cases h; rfl
  have hnone : getOpt n s.file = .none := by
    rcases C98_typed m cli s h n with h | h
    · exact h
    · exfalso
      generalize getOpt n s.file = w at h
      cases h with
      | names h _ =>
        simp only [List.mem_cons, List.not_mem_nil, or_false] at hn
        rcases hn with rfl | rfl | rfl <;> exact absurd h (by decide)
      | path h =>
        simp only [List.mem_cons, List.not_mem_nil, or_false] at hn
        rcases hn with rfl | rfl | rfl <;> exact absurd h (by decide)
      | rules h => exact absurd hn (by decide)
  unfold getArgumentValue
  have hn : Val.truthy .none = false := rfl
  simp only [hcli, hnone, hn, Bool.false_and, Bool.and_false, Bool.false_eq_true, if_false]

/-- C98, of a named file: it has to be there. -/
def C98_named_statement : Prop :=
  ∀ (m : Machine) (c : String), c ≠ "" → m.files (m.resolve c) = none →
    ∃ e, m.loadConfig (some c) = .error e

/-- C98 fails of a named file: one that is not there is taken as empty. -/
theorem C98_named_violated : ¬ C98_named_statement := by
  intro h
  let m : Machine := ⟨"/root", "/work", fun _ => none, rfl, by decide, by decide⟩
  obtain ⟨e, he⟩ := h m "mistyped.yaml" (by decide) rfl
  have := (C98_custom m "mistyped.yaml" (by decide) (.dict [])).2 ⟨.inl ⟨rfl, rfl⟩, [], rfl, by simp⟩
  rw [this] at he
  cases he

/-- C98: run in the home directory, the file there counts once. -/
theorem C98_same (m : Machine) (hd : m.home = m.cwd)
    (h1 : m.files (joinPath m.cwd ".cfnlintrc.yaml") = none)
    (h2 : m.files (joinPath m.cwd ".cfnlintrc.yml") = none)
    (w : Val) (hw : w.WF) (hf : m.files (joinPath m.cwd ".cfnlintrc") = some (.ok w))
    (ht : w.truthy = true) (hc : FileConfig w) : m.loadConfig none = .ok w := by
  have e1 : rcName ++ ".yaml" = ".cfnlintrc.yaml" := by decide
  have e2 : rcName ++ ".yml" = ".cfnlintrc.yml" := by decide
  have hpf : m.projectFile = joinPath m.cwd ".cfnlintrc" := by
    unfold Machine.projectFile
    rw [hasFile_yaml, hasFile_yml, e1, e2, h1, h2]
    rfl
  have hh : FileHolds (m.files (joinPath m.cwd ".cfnlintrc")) w := .inr ⟨w, hf, .inl ⟨ht, rfl⟩⟩
  refine (C98_both m w).2 ⟨w, w, by rw [hd]; exact hh, hc, by rw [hpf]; exact hh, hc, ?_⟩
  exact (mergeVal_self w hw).symm

/-! ### Examples -/

/-- a machine with a file of the user and two of the project -/
def exMachine : Machine where
  home := "/home/u"
  cwd := "/work"
  files := fun p =>
    if p = "/home/u/.cfnlintrc" then some (.ok (.dict [(.str "regions", .list [.str "us-east-1"]),
      (.str "ignore_checks", .list [.str "E1"])]))
    else if p = "/work/.cfnlintrc.yml" then some (.ok (.dict [(.str "ignore_checks", .list [.str "E2"])]))
    else if p = "/work/.cfnlintrc" then some (.ok (.dict [(.str "format", .str "json")]))
    else none
  cwdDir := by decide
  homeAbs := by decide
  cwdAbs := by decide

-- the second name is preferred to the third, which would have been refused
example : exMachine.loadConfig none = .ok (.dict [(.str "regions", .list [.str "us-east-1"]),
    (.str "ignore_checks", .list [.str "E2"])]) := by decide
example : exMachine.loadConfig (some ".cfnlintrc") = .error (.other "ValidationError") := by decide
example : exMachine.loadConfig (some "missing") = .ok (.dict []) := by decide
example : exMachine.findConfig = ("/home/u/.cfnlintrc", "/work/.cfnlintrc.yml") := by decide
example : validateConfig (.dict [(.str "configure_rules",
    .dict [(.str "E3012", .dict [(.str "strict", .bool false)])])]) = .ok () := by decide
example : validateConfig (.dict [(.str "configure_rules",
    .dict [(.str "E3012", .dict [(.str "strict", .list [])])])]) = .error (.other "ValidationError") := by
  decide
-- the hypotheses of the claims
example : ∃ m : Machine, ∃ w, m.files (joinPath m.home ".cfnlintrc") = some (.ok w) ∧
    w.truthy = true ∧ ¬ FileConfig w :=
  ⟨⟨"/h", "/w", fun p => if p = "/h/.cfnlintrc" then some (.ok (.list [.int 1])) else none,
    by decide, by decide, by decide⟩, .list [.int 1], by decide, rfl, by
      rintro ⟨kvs, h, _⟩; cases h⟩
example : ∃ m : Machine, m.home = m.cwd ∧ m.files (joinPath m.cwd ".cfnlintrc.yaml") = none ∧
    m.files (joinPath m.cwd ".cfnlintrc.yml") = none ∧ ∃ w : Val, w.WF ∧ w.truthy = true ∧ FileConfig w ∧
    m.files (joinPath m.cwd ".cfnlintrc") = some (.ok w) :=
  ⟨⟨"/h", "/h", fun p => if p = "/h/.cfnlintrc" then
      some (.ok (.dict [(.str "override_spec", .str "f")])) else none,
    by decide, by decide, by decide⟩, rfl, by decide, by decide,
    .dict [(.str "override_spec", .str "f")], by simp [Val.WF, Val.WFDict], rfl,
    (okConfig_iff _).1 (by decide), by decide⟩

end CfnLint
