import Verif.Model.GraphDot
import Verif.Props.Graph
import Verif.Props.BoundsClosed
/-
Property C141: the graph that `--build-graph` draws, and that drawing it does not change what is reported.
-/
namespace CfnLint

open Spec

/-- `a` needs `b` by the function or attribute which the label names -/
inductive Spec.NeedsBy (t : Val) (a : Key) : String → String → Prop
  | dependsOn {b} : At t [.str "Resources", a, .str "DependsOn"] (.str b) → NeedsBy t a "DependsOn" b
  | dependsOnOne {b xs} : At t [.str "Resources", a, .str "DependsOn"] (.list xs) → .str b ∈ xs → NeedsBy t a "DependsOn" b
  | ref {b} : ResourceUses t a "Ref" (.str b) → NeedsBy t a "Ref" b
  | getAtt {b x} : ResourceUses t a "Fn::GetAtt" (.list [.str b, x]) → NeedsBy t a "GetAtt" b
  | getAttText {b s attr} : ResourceUses t a "Fn::GetAtt" (.str s) → '.' ∉ b.toList → s.toList = b.toList ++ '.' :: attr → NeedsBy t a "GetAtt" b
  | sub {b s n} : ResourceUses t a "Fn::Sub" (.str s) → Variable s.toList n → Owner n b.toList → NeedsBy t a "Sub" b
  | subMap {b s m n} : ResourceUses t a "Fn::Sub" (.list [.str s, .dict m]) → Variable s.toList n →
      (∀ w, (.str (String.ofList n), w) ∉ m) → Owner n b.toList → NeedsBy t a "Sub" b

/-- the value that the label of a resource shows: its type, or the empty text -/
def Spec.ShownType (r : Val) (ty : Val) : Prop :=
  look r [.str "Type"] = some ty ∨ look r [.str "Type"] = none ∧ ty = .str ""

theorem mem_labelled {l l' : String} {es : List Edge} {a b : Key} : (a, b, l) ∈ labelled l' es ↔ l = l' ∧ (a, b) ∈ es := by
  simp only [labelled, List.mem_map, Prod.mk.injEq]
  constructor
  · rintro ⟨e, he, rfl, rfl, rfl⟩
    exact ⟨rfl, he⟩
  · rintro ⟨rfl, he⟩
    exact ⟨_, he, rfl, rfl, rfl⟩

theorem labelled_erased (l : String) (es : List Edge) : (labelled l es).map (fun e => (e.1, e.2.1)) = es := by
  simp [labelled, Function.comp_def]

/-- **C141** The graph that is drawn is the one which E3004 searches for cycles: it is built for the same templates, and without its labels it has the same edges in the
same order. -/
theorem C141_same_edges (t : Val) : graphEdges t (.dict []) = (dotGraph t).map (fun g => g.edges.map (fun e => (e.1, e.2.1))) := by
  unfold graphEdges dotGraph
  cases resourcesOf t with
  | error e => rfl
  | ok res =>
    dsimp only
    cases collectM (dependsOnEdges res) res with
    | error e => rfl
    | ok d =>
      dsimp only
      cases collectM (refEdges res) (searchDeepKeys "Ref" t (.dict [])) with
      | error e => rfl
      | ok r =>
        dsimp only
        cases collectM (getAttEdges res) (searchDeepKeys "Fn::GetAtt" t (.dict [])) with
        | error e => rfl
        | ok g =>
          dsimp only
          cases collectM (subEdges res) (searchDeepKeys "Fn::Sub" t (.dict [])) with
          | error e => rfl
          | ok s => simp [Except.map, List.map_append, labelled_erased]

/-- **C141** For a template of the documented shape the graph has one node for each resource, with its type, and an edge only where a resource needs another one in the way
its label says; with plain variables every such need has its edge. Missing: variables of `Fn::Sub` with other characters than letters, digits and dots. -/
theorem C141_drawn_partial {t : Val} (h : GraphShape t) :
    ∃ g, dotGraph t = .ok g ∧ (g.nodes.map Prod.fst).Nodup ∧
      (∀ k ty, (k, ty) ∈ g.nodes ↔ ∃ r, At t [.str "Resources", k] r ∧ ShownType r ty) ∧
      (∀ a b l, (a, b, l) ∈ g.edges → IsRes t a ∧ IsRes t b ∧ ∃ s, b = .str s ∧ NeedsBy t a l s) ∧
      (PlainVariables t → ∀ a l s, IsRes t (.str s) → NeedsBy t a l s → (a, .str s, l) ∈ g.edges) := by
  have hg := empty_globals
  obtain ⟨res, hres, hmem, hne⟩ := resourcesOf_spec h
  obtain ⟨d, hd⟩ := dependsOn_ok hne
  obtain ⟨r, hr⟩ := refs_ok h hg hne
  obtain ⟨ga, hga⟩ := getAtts_ok h hg hne
  obtain ⟨su, hsu⟩ := subs_ok h hg hne
  have hnode : ∀ kv ∈ res, (dotNode kv).1 = kv.1 ∧ ∀ ty, (dotNode kv).2 = ty ↔ ShownType kv.2 ty := by
    rintro ⟨k, v⟩ hkv
    obtain ⟨e, b, hb⟩ := hne _ hkv
    simp only at hb
    subst hb
    simp only [dotNode, Val.getD, true_and]
    intro ty
    unfold ShownType
    rw [show look (.dict (e :: b)) [Key.str "Type"] = dlookup (Key.str "Type") (e :: b) from by
      cases hx : dlookup (Key.str "Type") (e :: b) with
      | none =>
        cases hy : look (.dict (e :: b)) [Key.str "Type"] with
        | none => rfl
        | some w => rw [look_key.1 hy] at hx; cases hx
      | some w => exact look_key.2 hx]
    cases dlookup (Key.str "Type") (e :: b) <;> simp [eq_comm]
  have hfst : (res.map dotNode).map Prod.fst = res.map Prod.fst := by
    rw [List.map_map]
    exact List.map_congr_left fun kv hkv => (hnode kv hkv).1
  have hnd : (res.map Prod.fst).Nodup := by
    obtain ⟨kvs, ht⟩ := h.top
    have hw := h.wf
    subst ht
    simp only [resourcesOf, Val.getD] at hres
    cases hl : dlookup (Key.str "Resources") kvs with
    | none => rw [hl] at hres; cases hres; exact List.nodup_nil
    | some s =>
      have hat : At (.dict kvs) [.str "Resources"] s := at_dict_one.2 (dlookup_mem hl)
      obtain ⟨rs, rfl, -⟩ := h.resources s hat
      rw [hl] at hres
      cases hres
      exact keys_distinct (at_wf hat hw)
  refine ⟨⟨res.map dotNode, labelled "DependsOn" d ++ labelled "Ref" r ++ labelled "GetAtt" ga ++ labelled "Sub" su⟩,
    by simp only [dotGraph, hres, hd, hr, hga, hsu], by rw [hfst]; exact hnd, ?_, ?_, ?_⟩
  · intro k ty
    constructor
    · intro hk
      obtain ⟨kv, hkv, e⟩ := List.mem_map.1 hk
      obtain ⟨h1, h2⟩ := hnode kv hkv
      rw [e] at h1 h2
      dsimp only at h1
      subst h1
      exact ⟨kv.2, (hmem _ _).1 hkv, (h2 ty).1 rfl⟩
    · rintro ⟨v, hv, hty⟩
      have hkv := (hmem _ _).2 hv
      obtain ⟨h1, h2⟩ := hnode _ hkv
      exact List.mem_map.2 ⟨_, hkv, Prod.ext h1 ((h2 ty).2 hty)⟩
  · intro a b l hin
    simp only [List.mem_append, mem_labelled] at hin
    rcases hin with ((⟨rfl, hin⟩ | ⟨rfl, hin⟩) | ⟨rfl, hin⟩) | ⟨rfl, hin⟩
    · obtain ⟨hb, s, rfl, hor⟩ := (mem_dependsOn h hmem hne hd).1 hin
      have ha : IsRes t a := by
        rcases hor with h | ⟨_, h, _⟩ <;> exact uses_isRes (key := "DependsOn") ⟨[], h⟩
      rcases hor with h1 | ⟨xs, h1, h2⟩
      · exact ⟨ha, hb, s, rfl, .dependsOn h1⟩
      · exact ⟨ha, hb, s, rfl, .dependsOnOne h1 h2⟩
    · obtain ⟨hb, s, rfl, hu⟩ := (mem_refs h hg hmem hne hr).1 hin
      exact ⟨uses_isRes hu, hb, s, rfl, .ref hu⟩
    · obtain ⟨hb, s, rfl, ⟨x, hu⟩ | ⟨w, attr, hu, h1, h2⟩⟩ := (mem_getAtts h hg hmem hne hga).1 hin
      · exact ⟨uses_isRes hu, hb, s, rfl, .getAtt hu⟩
      · exact ⟨uses_isRes hu, hb, s, rfl, .getAttText hu h1 h2⟩
    · obtain ⟨hb, s, n, w, rfl, ho, hn, hu | ⟨m, hu, hm⟩⟩ := (mem_subs h hg hmem hne hsu).1 hin
      · exact ⟨uses_isRes hu, hb, _, rfl, .sub hu (variable_of_token hn) (by rw [String.toList_ofList]; exact ho)⟩
      · exact ⟨uses_isRes hu, hb, _, rfl, .subMap hu (variable_of_token hn)
          (by rw [String.ofList_toList]; exact hm) (by rw [String.toList_ofList]; exact ho)⟩
  · intro hp a l s hb hneed
    simp only [List.mem_append, mem_labelled]
    cases hneed with
    | dependsOn h1 => exact .inl (.inl (.inl ⟨rfl, (mem_dependsOn h hmem hne hd).2 ⟨hb, s, rfl, .inl h1⟩⟩))
    | dependsOnOne h1 h2 => exact .inl (.inl (.inl ⟨rfl, (mem_dependsOn h hmem hne hd).2 ⟨hb, s, rfl, .inr ⟨_, h1, h2⟩⟩⟩))
    | ref hu => exact .inl (.inl (.inr ⟨rfl, (mem_refs h hg hmem hne hr).2 ⟨hb, s, rfl, hu⟩⟩))
    | getAtt hu => exact .inl (.inr ⟨rfl, (mem_getAtts h hg hmem hne hga).2 ⟨hb, s, rfl, .inl ⟨_, hu⟩⟩⟩)
    | getAttText hu h1 h2 => exact .inl (.inr ⟨rfl, (mem_getAtts h hg hmem hne hga).2 ⟨hb, s, rfl, .inr ⟨_, _, hu, h1, h2⟩⟩⟩)
    | @sub _ w n hu hv ho =>
      refine .inr ⟨rfl, (mem_subs h hg hmem hne hsu).2 ⟨hb, w, String.ofList n, s.toList, by rw [String.ofList_toList],
        by rw [String.toList_ofList]; exact ho, ?_, .inl hu⟩⟩
      exact token_of_variable hv (hp _ _ _ hu (.inl rfl) _ hv)
    | @subMap _ w m n hu hv hm ho =>
      refine .inr ⟨rfl, (mem_subs h hg hmem hne hsu).2 ⟨hb, w, String.ofList n, s.toList, by rw [String.ofList_toList],
        by rw [String.toList_ofList]; exact ho, ?_, .inr ⟨m, hu, hm⟩⟩⟩
      exact token_of_variable hv (hp _ _ _ hu (.inr ⟨_, rfl⟩) _ hv)

/-- neither module raises: each writes the file or is not installed -/
def Spec.Draws (w : DotWriter) : Prop := ∀ p g e, w.agraph p g ≠ .raised e ∧ w.pydot p g ≠ .raised e

/-- **C141** For a template of the documented shape that has a name, the graph is drawn into the file of that name with `.dot` behind it, or no module can draw it. -/
theorem C141_file_partial {w : DotWriter} (hw : Draws w) {t : Val} (h : GraphShape t) (f : String) :
    ∃ g, dotGraph t = .ok g ∧ (buildGraph w (some f) t = .ok (some (f ++ ".dot", g)) ∨
      buildGraph w (some f) t = .ok none ∧ w.agraph (f ++ ".dot") g = .notInstalled ∧ w.pydot (f ++ ".dot") g = .notInstalled) := by
  obtain ⟨g, hg, -⟩ := C141_drawn_partial h
  refine ⟨g, hg, ?_⟩
  simp only [buildGraph, hg, toDot]
  cases h1 : w.agraph (f ++ ".dot") g with
  | raised e => exact absurd h1 (hw _ _ e).1
  | written => exact .inl rfl
  | notInstalled =>
    dsimp only
    cases h2 : w.pydot (f ++ ".dot") g with
    | raised e => exact absurd h2 (hw _ _ e).2
    | written => exact .inl rfl
    | notInstalled => exact .inr ⟨rfl, rfl, rfl⟩

/-- two checks that agree on the templates of a run give the same -/
theorem lintAll_agree {objs : List RuleObj} {args : Sources} {f g : Val → Option Coll → RunM (List Match)} :
    ∀ {ds : List Decoded} (st : LintState), (∀ d ∈ ds, d.errors = [] → ∀ c, f d.template c = g d.template c) →
    (∀ d ∈ ds, d.errors ≠ [] → d.template.truthy = false) → lintAll objs args f st ds = lintAll objs args g st ds
  | [], _, _, _ => rfl
  | d :: ds, st, h, h0 => by
    unfold lintAll
    cases hx : getTemplateRules objs args st d with
    | error e => rfl
    | ok r =>
      obtain ⟨st', t, coll, errors⟩ := r
      have ht : t = d.template := by
        unfold getTemplateRules at hx
        repeat' (first | split at hx | dsimp only at hx)
        all_goals cases hx
        all_goals rfl
      clear hx
      subst ht
      have ih := lintAll_agree (objs := objs) (args := args) st' (fun d hd => h d (List.mem_cons_of_mem _ hd)) (fun d hd => h0 d (List.mem_cons_of_mem _ hd))
      dsimp only
      rw [ih]
      cases errors with
      | cons e es => rfl
      | nil =>
        by_cases he : d.errors = []
        · simp only [h d List.mem_cons_self he coll]
        · simp [h0 d List.mem_cons_self he]

/-- **C141** An error of the module that draws the graph is an error of the program. -/
theorem C141_raised {w : DotWriter} {t : Val} {g : DotGraph} {f : String} {e : PyErr} (hg : dotGraph t = .ok g)
    (h : w.agraph (f ++ ".dot") g = .raised e ∨ (w.agraph (f ++ ".dot") g = .notInstalled ∧ w.pydot (f ++ ".dot") g = .raised e)) :
    buildGraph w (some f) t = .error e := by
  rcases h with h | ⟨h, h'⟩
  · simp only [buildGraph, hg, toDot, h]
  · simp only [buildGraph, hg, toDot, h, h']

/-- a module that fails -/
example : ∃ e, buildGraph ⟨fun _ _ => .raised (.other "OSError"), fun _ _ => .notInstalled⟩ (some "t") (.dict [(.str "Resources", .dict [])]) = .error e :=
  ⟨_, C141_raised (g := _) rfl (.inl rfl)⟩

/-- **C141** The status of the program, and what it prints, are the same with and without `--build-graph`. Missing: templates that are read from the standard input, and
templates in which a resource is not an object with entries or a function has not the documented form. -/
theorem C141_unchanged_partial {w : DotWriter} (hw : Draws w) {file : Val → Option String} {launch : Launch} {objs : List RuleObj} {args : Sources}
    {check : Val → Option Coll → RunM (List Match)} {print : List Match → PyM Unit} {ds : List Decoded}
    (hs : ∀ d ∈ ds, d.errors = [] → GraphShape d.template ∧ ∃ f, file d.template = some f)
    (h0 : ∀ d ∈ ds, d.errors ≠ [] → d.template.truthy = false) :
    lintAll objs args (runCli true w file check) {} ds = lintAll objs args (runCli false w file check) {} ds ∧
      runCommand launch objs args (runCli true w file check) print ds = runCommand launch objs args (runCli false w file check) print ds := by
  have h : lintAll objs args (runCli true w file check) {} ds = lintAll objs args (runCli false w file check) {} ds := by
    refine lintAll_agree _ (fun d hd he c => ?_) h0
    obtain ⟨h1, f, hf⟩ := hs d hd he
    obtain ⟨g, -, h2⟩ := C141_file_partial hw h1 f
    simp only [runCli, if_true, hf]
    rcases h2 with h2 | ⟨h2, -⟩ <;> rw [h2] <;> rfl
  exact ⟨h, by unfold runCommand; rw [h]⟩

/-- **C141** in full: whatever the templates and where they come from, `--build-graph` does not change the status of the program -/
def C141_statement : Prop :=
  ∀ (w : DotWriter), Draws w → ∀ (file : Val → Option String) (launch : Launch) (objs : List RuleObj) (args : Sources) (check : Val → Option Coll → RunM (List Match))
    (print : List Match → PyM Unit) (ds : List Decoded),
    runCommand launch objs args (runCli true w file check) print ds = runCommand launch objs args (runCli false w file check) print ds

/-! ### witnesses -/

def exWriter : DotWriter := ⟨fun _ _ => .notInstalled, fun _ _ => .written⟩

theorem exWriter_draws : Draws exWriter := fun _ _ _ => ⟨by simp [exWriter], by simp [exWriter]⟩

/-- a check with one finding -/
def exOneFinding (_ : Val) (_ : Option Coll) : RunM (List Match) := .ok [{ (default : Match) with rule := { id := "E3012" } }]

/-- the full statement does not hold: started as a module on the standard input, the program ends with status 0 although there is an error in the template -/
theorem C141_stdin_violated : ¬ C141_statement := by
  intro h
  exact absurd (h exWriter exWriter_draws (fun _ => none) .modul [] (c50Args [] false []) exOneFinding (fun _ => .ok ()) [⟨selfSub "${B}", []⟩]) (by decide +kernel)

/-- the full statement does not hold either for a file: a resource that is a text is an error of the template, but with the graph the program fails -/
theorem C141_text_violated : ¬ C141_statement := by
  intro h
  exact absurd (h exWriter exWriter_draws (fun _ => some "t.yaml") .script [] (c50Args [] false []) exOneFinding (fun _ => .ok ())
    [⟨.dict [(.str "Resources", .dict [(.str "A", .str "x")])], []⟩]) (by decide +kernel)

/-- `C141_drawn_partial` and `C141_file_partial` -/
example : ∃ g, dotGraph (selfSub "${A.Arn}") = .ok g ∧ g.nodes = [(.str "A", .str "")] ∧ g.edges = [(.str "A", .str "A", "Sub")] ∧
    buildGraph exWriter (some "t.yaml") (selfSub "${A.Arn}") = .ok (some ("t.yaml.dot", g)) := by
  obtain ⟨g, h1, -⟩ := C141_drawn_partial (selfSub_shape "${A.Arn}")
  have h2 : dotGraph (selfSub "${A.Arn}") = .ok ⟨[(.str "A", .str "")], [(.str "A", .str "A", "Sub")]⟩ := by decide +kernel
  rw [h2] at h1
  cases h1
  refine ⟨_, h2, rfl, rfl, ?_⟩
  obtain ⟨g, h3, h4⟩ := C141_file_partial exWriter_draws (selfSub_shape "${A.Arn}") "t.yaml"
  rw [h2] at h3
  cases h3
  rcases h4 with h4 | ⟨-, -, h4⟩
  · exact h4
  · cases h4

/-- `C141_unchanged_partial` -/
example : runCommand .script [] (c50Args [] false []) (runCli true exWriter (fun _ => some "t.yaml") exOneFinding) (fun _ => .ok ()) [⟨selfSub "${B}", []⟩] = 2 := by
  rw [(C141_unchanged_partial exWriter_draws (fun d hd _ => by cases List.mem_singleton.1 hd; exact ⟨selfSub_shape _, _, rfl⟩)
    (fun d hd h => by cases List.mem_singleton.1 hd; exact absurd rfl h)).2]
  decide +kernel

end CfnLint
