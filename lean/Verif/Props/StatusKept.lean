import Verif.Props.StatusBits
/-
Property C153: every bit of the status of a run in which resources ask to ignore rules.
-/
namespace CfnLint

open Spec

namespace Spec

/-- a resource asks to ignore findings like this one at its place, and the rule is not mandatory -/
def Ignored (args : Sources) (mark : Val → MVal) (t : Val) (x : Match) : Prop :=
  ∃ dirs cfg mand, getDirectives (mark t) = .ok dirs ∧ ConfiguredBy args t cfg ∧ cfg.mandatory = List.map Val.str mand ∧ Suppressed Touches dirs mand x

/-- what the resources ask to ignore can be read, and E0002 is not among it -/
def Directed (mark : Val → MVal) (t : Val) : Prop := ∃ dirs, getDirectives (mark t) = .ok dirs ∧ dlookup (Val.str "E0002") dirs = none

/-- some rule in force whose id begins with one of the letters has, in a call all of whose results have a place, a result that is not ignored -/
def KeptBy (objs : List RuleObj) (args : Sources) (S : TypeSpecs) (beh : RuleObj → Behaviour) (name : Val → String) (mark : Val → MVal) (upper lower : Char)
    (t : Val) : Prop :=
  ∃ r : RuleObj, InForce objs args t r.info ∧ Lettered upper lower r.info.id ∧ ∃ rs, Call S (beh r) (mark t).erase (.ok rs) ∧ ¬ Lost (mark t) rs ∧
    ∃ p msg, (p, msg) ∈ rs ∧ ∃ x, ShowsAt (name t) r.info (mark t) p msg x ∧ ¬ Ignored args mark t x

end Spec

variable {objs : List RuleObj} {args : Sources} {all : List String} {regions : List Val} {S : TypeSpecs} {beh : RuleObj → Behaviour}
  {name : Val → String} {mark : Val → MVal} {print : List Match → PyM Unit} {ds : List Decoded}

/-- the findings of one template -/
def LettersKept (objs : List RuleObj) (args : Sources) (S : TypeSpecs) (beh : RuleObj → Behaviour) (name : Val → String) (mark : Val → MVal) (t : Val)
    (out : List Match) : Prop :=
  (∀ x ∈ out, (∃ r ∈ objs, x.rule.id = r.info.id) ∨ x.rule.id = "E0002") ∧
  ∀ u l, (∃ x ∈ out, HasLetter u l x) ↔ KeptBy objs args S beh name mark u l t ∨ Lettered u l "E0002" ∧ BrokenBy objs args S beh mark t

theorem check_kept (h : ReadyRun objs args all regions beh mark print ds) {d : Decoded} (hd : d ∈ ds) (hdir : Directed mark d.template)
    {cfg0 : Cfg} {c : Coll} (hok : CollOK objs cfg0 c) (hc : ConfiguredBy args d.template c.cfg) (hmand : ∃ mand : List String, c.cfg.mandatory = mand.map .str)
    (hsame : ∀ r r' : RuleObj, r.info = r'.info → beh r = beh r') :
    ∃ out, checkWith all regions S beh name mark d.template (some c) = .ok out ∧ LettersKept objs args S beh name mark d.template out := by
  obtain ⟨hE, ⟨b, hb⟩, -⟩ := h.decided d hd _ hc
  obtain ⟨-, hw, top, ht⟩ := h.decoded d hd
  obtain ⟨mand, hmand⟩ := hmand
  obtain ⟨dirs, hdir, hno⟩ := hdir
  have hreg : (if regions.isEmpty then .ok true else regionsSupported all regions : PyM Bool) = .ok true := by
    rcases h.supported with rfl | hr
    · rfl
    · rw [hr]; split <;> rfl
  have hmk := h.marks d.template
  have hforce : ∀ r ∈ c.active, InForce objs args d.template r.info := fun r hr => by
    obtain ⟨r0, hr0, hi⟩ := active_info hok hr
    exact ⟨hi ▸ List.mem_map_of_mem hr0, fun cfg hcfg => by rw [configuredBy_unique hcfg hc]; exact active_enabled hok hr⟩
  have hactive : ∀ r : RuleObj, InForce objs args d.template r.info → ∃ r' ∈ c.active, r'.info = r.info ∧ beh r' = beh r := fun r hr => by
    obtain ⟨r0, hr0, hi⟩ := List.mem_map.1 hr.1
    obtain ⟨r', hr', hi'⟩ := active_of_enabled hok hr0 (by rw [hi]; exact hr.2 _ hc)
    exact ⟨r', hr', hi'.trans hi, hsame _ _ (hi'.trans hi)⟩
  cases hm : mark d.template with
  | dict m mtop =>
    rw [hm] at hmk hdir
    obtain ⟨raw, r1, r2, r3, -⟩ := C127_run S beh c (name d.template) m mtop (by unfold MWF; rw [hmk]; exact hw) hE
      (fun r _ => by rw [hmk]; exact h.settable d hd r)
    have r4 := run_placed (by unfold MWF; rw [hmk]; exact hw) hE (fun r _ => by rw [hmk]; exact h.settable d hd r) r1
    obtain ⟨kept, k1, k2, -⟩ := C07_filter_exact dirs mand raw
    have hck : lintTemplate all regions S beh c (name d.template) (.dict m mtop) = .ok (kept.mergeSort sortKeyLe) := by
      simp only [lintTemplate, runChecks, hreg, transformErrorRule, hb, r1, runnerRun, hdir, hmand, k1]
    obtain ⟨s1, s2⟩ := lintTemplate_spec hck hmand hdir r1
    have ign : ∀ x, Ignored args mark d.template x ↔ Suppressed Touches dirs mand x := fun x => by
      constructor
      · rintro ⟨dirs', cfg, mand', e1, e2, e3, hs⟩
        rw [hm, hdir] at e1
        cases e1
        rw [configuredBy_unique e2 hc, hmand] at e3
        rw [List.map_injective_iff.2 (fun a b h => by cases h; rfl) e3]
        exact hs
      · exact fun hs => ⟨dirs, c.cfg, mand, by rw [hm]; exact hdir, hc, hmand, hs⟩
    have back : ∀ x ∈ raw, ¬ Suppressed Touches dirs mand x → ∃ y ∈ kept.mergeSort sortKeyLe, y.rule.id = x.rule.id := fun x hx hn => by
      obtain ⟨y, hy, -, -, e, -⟩ := s2 x hx hn
      exact ⟨y, hy, e.symm⟩
    refine ⟨kept.mergeSort sortKeyLe, by simp only [checkWith, hm, hck], ?_, ?_⟩
    · intro x hx
      obtain ⟨r, hr, call, -, ⟨rs, p, msg, -, -, hs, -⟩ | ⟨hf, -⟩⟩ := r4 x (s1 x hx)
      · obtain ⟨r0, hr0, hi⟩ := active_info hok hr
        exact .inl ⟨r0, hr0, by rw [hs.1, hi]⟩
      · exact .inr hf.1
    · intro u l
      constructor
      · rintro ⟨x, hx, hl⟩
        obtain ⟨r, hr, call, hcall, ⟨rs, p, msg, rfl, hp, hs, hlost⟩ | ⟨hf, hwhy⟩⟩ := r4 x (s1 x hx)
        · refine .inl ⟨r, hforce r hr, ?_, by rw [hm]; exact ⟨rs, hcall, hlost, p, msg, hp, x, hs, fun hi => k2 x (List.mem_mergeSort.1 hx) ((ign x).1 hi)⟩⟩
          unfold HasLetter at hl
          rw [hs.1] at hl
          exact hl
        · refine .inr ⟨?_, r, hforce r hr, ?_⟩
          · unfold HasLetter at hl
            rw [hf.1] at hl
            exact hl
          · rw [hm]
            rcases hwhy with ⟨rs, rfl, hlost⟩ | ⟨e, rfl, he⟩
            · exact .inl ⟨rs, hcall, hlost⟩
            · exact .inr ⟨e, hcall, he⟩
      · rintro (⟨r, hr, hl, rs, hcall, hlost, p, msg, hp, x0, hs0, hn0⟩ | ⟨hl, r, hr, hbr⟩)
        · obtain ⟨r', hr', hi, hbeh⟩ := hactive r hr
          rw [hm] at hcall hlost hs0
          rw [← hbeh] at hcall
          rcases r2 r' hr' rs hcall with hall | ⟨hl', -⟩
          · obtain ⟨x, hx, hs⟩ := hall p msg hp
            obtain ⟨y, hy, e⟩ := back x hx (by
              have hpos := hs0.2.2.2.symm.trans hs.2.2.2
              simp only [Except.ok.injEq, Prod.mk.injEq] at hpos
              intro hsup
              refine hn0 ((ign x0).2 ?_)
              unfold Suppressed Touches at hsup ⊢
              rw [hs0.1, hpos.1, hpos.2.1, hpos.2.2.2]
              rw [hs.1, hi] at hsup
              exact hsup)
            exact ⟨y, hy, by unfold HasLetter; rw [e, hs.1, hi]; exact hl⟩
          · exact absurd hl' hlost
        · obtain ⟨r', hr', hi, hbeh⟩ := hactive r hr
          rw [hm, ← hbeh] at hbr
          have : ∃ x ∈ raw, Failed r'.info x := by
            rcases hbr with ⟨rs, hcall, hlost⟩ | ⟨e, hcall, he⟩
            · rcases r2 r' hr' rs hcall with hall | ⟨-, hx⟩
              · obtain ⟨p, msg, e, hp, hbad⟩ := hlost
                obtain ⟨x, -, hs⟩ := hall p msg hp
                rw [hs.2.2.2] at hbad
                cases hbad
              · exact hx
            · rcases r3 r' hr' e hcall with ⟨s, hs⟩ | hx
              · exact absurd hs (he s)
              · exact hx
          obtain ⟨x, hx, hf⟩ := this
          obtain ⟨y, hy, e⟩ := back x hx (by
            rintro ⟨⟨l, hl, _⟩, _⟩
            rw [hf.1, hno] at hl
            cases hl)
          exact ⟨y, hy, by unfold HasLetter; rw [e, hf.1]; exact hl⟩
  | _ => rw [hm, ht] at hmk; cases hmk

theorem lintAll_kept {all' : List Decoded} (h : ReadyRun objs args all regions beh mark print all') (ht : ∀ d ∈ all', d.template.truthy = true)
    (hdir : ∀ d ∈ all', Directed mark d.template)
    (hmand : ∀ d ∈ all', ∀ cfg, ConfiguredBy args d.template cfg → ∃ mand : List String, cfg.mandatory = mand.map .str)
    (hsame : ∀ r r' : RuleObj, r.info = r'.info → beh r = beh r') :
    ∀ (ds : List Decoded) (st : LintState), (∀ d ∈ ds, d ∈ all') → Reach objs args st → (∃ b, ignoreBadTemplate (sourcesWith args st) = .ok b) →
      ∃ outs, lintAll objs args (checkWith all regions S beh name mark) st ds = .ok outs ∧
        List.Forall₂ (fun d out => LettersKept objs args S beh name mark d.template out) ds outs
  | [], st, _, _, _ => ⟨[], rfl, .nil⟩
  | d :: ds, st, hm, hr, hb => by
    have hd := hm d List.mem_cons_self
    obtain ⟨targs, c, b', hg, h3⟩ := template_rules h hr hb hd
    obtain ⟨targs', cfg', h1', h2', hok⟩ := template_coll hr hg
    have hcb : ConfiguredBy args d.template c.cfg := ⟨targs', cfg', h1', h2', hok.cfg⟩
    obtain ⟨out, hck, hout⟩ := check_kept (name := name) (S := S) h hd (hdir d hd) hok hcb (hmand d hd _ hcb) hsame
    obtain ⟨outs, ho, hf⟩ := lintAll_kept h ht hdir hmand hsame ds _ (fun x hx => hm x (List.mem_cons_of_mem _ hx)) (.step hr hg) ⟨b', h3⟩
    refine ⟨out :: outs, ?_, .cons hout hf⟩
    rw [lintAll, hg]
    simp only [ht d hd, if_true, hck, ho]

/-- **C153** Every bit of the status when resources ask to ignore rules, but not E0002: as C152, where only results count that are not ignored. -/
theorem C153_status (h : ReadyRun objs args all regions beh mark print ds) (hp : ∀ ms, print ms = .ok ()) (hids : ∀ r ∈ objs, r.info.id ≠ "")
    (ht : ∀ d ∈ ds, d.template.truthy = true) (hdir : ∀ d ∈ ds, Directed mark d.template)
    (hmand : ∀ d ∈ ds, ∀ cfg, ConfiguredBy args d.template cfg → ∃ mand : List String, cfg.mandatory = mand.map .str)
    (hsame : ∀ r r' : RuleObj, r.info = r'.info → beh r = beh r') (launch : Launch) :
    let status := runCommand launch objs args (checkWith all regions S beh name mark) print ds
    (status.testBit 3 = true ↔ ∃ d ∈ ds, KeptBy objs args S beh name mark 'I' 'i' d.template) ∧
    (status.testBit 2 = true ↔ ∃ d ∈ ds, KeptBy objs args S beh name mark 'W' 'w' d.template) ∧
    (status.testBit 1 = true ↔ ∃ d ∈ ds, KeptBy objs args S beh name mark 'E' 'e' d.template ∨ BrokenBy objs args S beh mark d.template) ∧
    ∀ i, i ≠ 1 → i ≠ 2 → i ≠ 3 → status.testBit i = false := by
  obtain ⟨b, hb⟩ := h.start
  obtain ⟨outs, ho, hf⟩ := lintAll_kept (name := name) (S := S) h ht hdir hmand hsame ds {} (fun d hd => hd) .init ⟨b, hb⟩
  have hne : ∀ out ∈ outs, ∀ x ∈ out, x.rule.id ≠ "" := by
    have : ∀ out ∈ outs, ∃ d ∈ ds, LettersKept objs args S beh name mark d.template out := fun out hout => by
      obtain ⟨i, hi, e⟩ := List.mem_iff_getElem.1 hout
      have hi' : i < ds.length := by rw [hf.length_eq]; exact hi
      have := (List.forall₂_iff_get.1 hf).2 i hi' hi
      simp only [List.get_eq_getElem, e] at this
      exact ⟨_, List.getElem_mem hi', this⟩
    intro out hout x hx
    obtain ⟨d, -, hd⟩ := this out hout
    rcases hd.1 x hx with ⟨r, hr, e⟩ | e
    · rw [e]; exact hids r hr
    · rw [e]; decide
  obtain ⟨b3, b2, b1, b0⟩ := C51_completed launch objs args (checkWith all regions S beh name mark) print ds outs ho (hp _) hne
  have no : ∀ u l, 'E' ≠ u → 'E' ≠ l → ¬ Lettered u l "E0002" := by
    rintro u l h1 h2 ⟨c, rest, e, h3⟩
    have e' : "E0002".toList = 'E' :: "0002".toList := by decide
    rw [e'] at e
    cases e
    rcases h3 with h3 | h3
    · exact h1 h3
    · exact h2 h3
  refine ⟨b3.trans (forall₂_exists hf fun d out hd => ?_), b2.trans (forall₂_exists hf fun d out hd => ?_), b1.trans (forall₂_exists hf fun d out hd => ?_), b0⟩
  · rw [show (∃ x ∈ out, IsInfo x) ↔ _ from hd.2 'I' 'i']
    exact or_iff_left fun h => no _ _ (by decide) (by decide) h.1
  · rw [show (∃ x ∈ out, IsWarning x) ↔ _ from hd.2 'W' 'w']
    exact or_iff_left fun h => no _ _ (by decide) (by decide) h.1
  · rw [show (∃ x ∈ out, IsError x) ↔ _ from hd.2 'E' 'e']
    exact or_congr_right ⟨fun h => h.2, fun h => ⟨⟨'E', "0002".toList, by decide, .inl rfl⟩, h⟩⟩

/-- a template whose resource asks to ignore a rule -/
def asksToIgnore (id : String) : Val := .dict [(.str "Resources", .dict [(.str "B", .dict [(.str "Type", .str "AWS::S3::Bucket"),
  (.str "Metadata", .dict [(.str "cfn-lint", .dict [(.str "config", .dict [(.str "ignore_checks", .list [.str id])])])])])])]

/-- the runs of the example: the template asks to ignore the rule or another one -/
def ignoringStatus (id : String) : Nat :=
  runCommand .script (withIds ["W1001"]) (c50Args [] false []) (checkWith [] [] ⟨[], []⟩ onlyWarns (fun _ => "t") (markAll default))
    (fun _ => .ok ()) [⟨asksToIgnore id, []⟩]

theorem asksToIgnore_args {id : String} (h : id ∈ ["W1001", "W1002"]) :
    setTemplateArgs (asksToIgnore id) = .ok [] ∧ Directed (markAll default) (asksToIgnore id) ∧ (asksToIgnore id).WF := by
  simp only [List.mem_cons, List.not_mem_nil, or_false] at h
  rcases h with rfl | rfl <;>
    exact ⟨by decide +kernel, ⟨_, rfl, by decide +kernel⟩, by simp [asksToIgnore, Val.WF, Val.WFDict, Val.WFList]⟩

theorem asksToIgnore_ready {id : String} (h : id ∈ ["W1001", "W1002"]) :
    ReadyRun (withIds ["W1001"]) (c50Args [] false []) [] [] onlyWarns (markAll default) (fun _ => .ok ()) [⟨asksToIgnore id, []⟩] where
  marks := erase_markAll _
  decoded := fun d hd => by cases List.mem_singleton.1 hd; exact ⟨rfl, (asksToIgnore_args h).2.2, _, rfl⟩
  start := ⟨false, by decide⟩
  configured := fun d hd => by
    cases List.mem_singleton.1 hd
    exact ⟨[], { incl := [.str "W", .str "E"] }, false, (asksToIgnore_args h).1, by decide, by decide⟩
  decided := fun d hd cfg hc => by
    cases List.mem_singleton.1 hd
    cases plain_configured (asksToIgnore_args h).1 hc
    exact ⟨by decide, ⟨true, by decide⟩, by decide⟩
  configurable := fun d hd cfg hc r _ o ho => by
    cases List.mem_singleton.1 hd
    cases plain_configured (asksToIgnore_args h).1 hc
    cases ho
  settable := fun d _ r => by unfold onlyWarns; split <;> rfl
  supported := .inl rfl
  printed := rfl

theorem asksToIgnore_bit {id : String} (h : id ∈ ["W1001", "W1002"]) : (ignoringStatus id).testBit 2 = true ↔
    KeptBy (withIds ["W1001"]) (c50Args [] false []) ⟨[], []⟩ onlyWarns (fun _ => "t") (markAll default) 'W' 'w' (asksToIgnore id) := by
  rw [show (ignoringStatus id).testBit 2 = true ↔ _ from (C153_status (name := fun _ => "t") (S := ⟨[], []⟩) (asksToIgnore_ready h) (fun _ => rfl)
    (fun r hr => by cases List.mem_singleton.1 hr; decide) (fun d hd => by cases List.mem_singleton.1 hd; rfl)
    (fun d hd => by cases List.mem_singleton.1 hd; exact (asksToIgnore_args h).2.1)
    (fun d hd cfg hc => by
      cases List.mem_singleton.1 hd
      cases plain_configured (asksToIgnore_args h).1 hc
      exact ⟨[], rfl⟩) (fun r r' e => by unfold onlyWarns; rw [e]) .script).2.1]
  simp

example : ¬ KeptBy (withIds ["W1001"]) (c50Args [] false []) ⟨[], []⟩ onlyWarns (fun _ => "t") (markAll default) 'W' 'w' (asksToIgnore "W1001") ∧
    KeptBy (withIds ["W1001"]) (c50Args [] false []) ⟨[], []⟩ onlyWarns (fun _ => "t") (markAll default) 'W' 'w' (asksToIgnore "W1002") :=
  ⟨fun h => absurd ((asksToIgnore_bit (by simp)).2 h) (by decide +kernel), (asksToIgnore_bit (by simp)).1 (by decide +kernel)⟩

end CfnLint
