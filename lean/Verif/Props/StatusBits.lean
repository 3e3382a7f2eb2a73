import Verif.Props.Silent
import Mathlib.Tactic.IntervalCases
/-
Property C152: every bit of the status of a run that is ready to start, in terms of what the rules in force say about the templates.
-/
namespace CfnLint

open Spec

namespace Spec

/-- the id begins with one of the letters -/
def Lettered (upper lower : Char) (id : String) : Prop := ∃ c rest, id.toList = c :: rest ∧ (c = upper ∨ c = lower)

/-- some call of the rule has results, all of which have a place -/
def GaveResults (S : TypeSpecs) (b : Behaviour) (t : MVal) : Prop := ∃ rs, Call S b t.erase (.ok rs) ∧ rs ≠ [] ∧ ¬ Lost t rs

/-- some call of the rule raises, other than on accessing an attribute of a template node, or has a result without a place -/
def Broken (S : TypeSpecs) (b : Behaviour) (t : MVal) : Prop :=
  (∃ rs, Call S b t.erase (.ok rs) ∧ Lost t rs) ∨ ∃ e, Call S b t.erase (.error e) ∧ ∀ s, e ≠ .templateAttributeError s

/-- some rule in force whose id begins with one of the letters has results -/
def ShownBy (objs : List RuleObj) (args : Sources) (S : TypeSpecs) (beh : RuleObj → Behaviour) (mark : Val → MVal) (upper lower : Char) (t : Val) : Prop :=
  ∃ r : RuleObj, InForce objs args t r.info ∧ Lettered upper lower r.info.id ∧ GaveResults S (beh r) (mark t)

/-- some rule in force breaks -/
def BrokenBy (objs : List RuleObj) (args : Sources) (S : TypeSpecs) (beh : RuleObj → Behaviour) (mark : Val → MVal) (t : Val) : Prop :=
  ∃ r : RuleObj, InForce objs args t r.info ∧ Broken S (beh r) (mark t)

end Spec

variable {objs : List RuleObj} {args : Sources} {all : List String} {regions : List Val} {S : TypeSpecs} {beh : RuleObj → Behaviour}
  {name : Val → String} {mark : Val → MVal} {print : List Match → PyM Unit} {ds : List Decoded}

theorem configuredBy_unique {t : Val} {cfg cfg' : Cfg} (h : ConfiguredBy args t cfg) (h' : ConfiguredBy args t cfg') : cfg = cfg' := by
  obtain ⟨t1, c1, a1, a2, rfl⟩ := h
  obtain ⟨t2, c2, b1, b2, rfl⟩ := h'
  rw [a1] at b1
  cases b1
  rw [a2] at b2
  cases b2
  rfl

/-- the findings of one template -/
def LettersFound (objs : List RuleObj) (args : Sources) (S : TypeSpecs) (beh : RuleObj → Behaviour) (mark : Val → MVal) (t : Val) (out : List Match) : Prop :=
  (∀ x ∈ out, (∃ r ∈ objs, x.rule.id = r.info.id) ∨ x.rule.id = "E0002") ∧
  ∀ u l, (∃ x ∈ out, HasLetter u l x) ↔ ShownBy objs args S beh mark u l t ∨ Lettered u l "E0002" ∧ BrokenBy objs args S beh mark t

/-- when every result is shown, every result has a place -/
theorem placed_found {filename : String} {info : RuleInfo} {t : MVal} {rs : List (Path × String)} {ms : List Match}
    (h : List.Forall₂ (fun pm x => ShowsAt filename info t pm.1 pm.2 x) rs ms) : ¬ Lost t rs := by
  rintro ⟨p, msg, e, hp, he⟩
  obtain ⟨i, hi, hpi⟩ := List.mem_iff_getElem.1 hp
  have := (List.forall₂_iff_get.1 h).2 i hi (by rw [← h.length_eq]; exact hi)
  simp only [List.get_eq_getElem, hpi] at this
  rw [this.2.2.2] at he
  cases he

/-- every finding of a run is a result of a call all of whose results have a place, or says that a rule broke -/
theorem run_placed {S : TypeSpecs} {beh : RuleObj → Behaviour} {c : Coll} {filename : String} {m : Span}
    {top : List (MKey × MVal)} (hw : MWF (.dict m top)) (hE : isRuleEnabled c.cfg { id := "E0002" } = .ok true)
    (hset : ∀ r ∈ c.active, (beh r).setUp (MVal.dict m top).erase = .ok ()) {raw : List Match} (hraw : collectionRun S beh c filename (.dict m top) = .ok raw) :
    ∀ x ∈ raw, ∃ r ∈ c.active, ∃ call, Call S (beh r) (MVal.dict m top).erase call ∧
        ((∃ rs p msg, call = .ok rs ∧ (p, msg) ∈ rs ∧ ShowsAt filename r.info (.dict m top) p msg x ∧ ¬ Lost (.dict m top) rs) ∨
         (Failed r.info x ∧ ((∃ rs, call = .ok rs ∧ Lost (.dict m top) rs) ∨
           ∃ e, call = .error e ∧ ∀ s, e ≠ .templateAttributeError s))) := by
  obtain ⟨rs, hrs, _⟩ := mGetResources_spec hw
  obtain ⟨out, h1, h2⟩ := C05_isolation_partial c.cfg hE filename (allChecks S beh c.active filename (.dict m top) rs)
  have hrun : collectionRun S beh c filename (.dict m top) = .ok out := by
    unfold allChecks at h1
    rw [runChecksSeq_append] at h1
    unfold collectionRun
    rw [initializeAll_ok hset]
    dsimp only
    split at h1
    · cases h1
    · rename_i ms hms
      rw [hms]
      dsimp only
      rw [hrs]
      exact h1
  rw [hrun] at hraw
  cases hraw
  intro x hx
  obtain ⟨rid, chk, ms, h3, h4, h5⟩ := runOf_source h2 x hx
  obtain ⟨r, hr, rfl, h6⟩ := check_call hw hrs h3
  rcases h6 with rfl | ⟨call, h6, rfl⟩
  · have h4' : ms = [] := h4
    subst h4'
    cases h5
  · refine ⟨r, hr, call, h6, ?_⟩
    cases call with
    | ok rs' =>
      simp only [placed] at h4
      rcases placeAll_spec filename r.info (.dict m top) rs' with ⟨ms', h7, h8⟩ | ⟨e, h7, h8, h9⟩
      · rw [h7] at h4
        have h4' : ms = ms' := h4
        subst h4'
        obtain ⟨i, hi, he⟩ := List.mem_iff_getElem.1 h5
        have hi' : i < rs'.length := by rw [h8.length_eq]; exact hi
        have := (List.forall₂_iff_get.1 h8).2 i hi' hi
        simp only [List.get_eq_getElem, he] at this
        exact .inl ⟨rs', _, _, rfl, List.getElem_mem hi', this, placed_found h8⟩
      · rw [h7] at h4
        refine .inr ⟨?_, .inl ⟨rs', rfl, h9⟩⟩
        cases e with
        | templateAttributeError s => exact absurd rfl (h8 s)
        | _ =>
          obtain ⟨y, hy, h10, _, _, s, h11⟩ := h4
          subst hy
          cases List.mem_singleton.1 h5
          exact ⟨h10, s, h11⟩
    | error e =>
      simp only [placed] at h4
      cases e with
      | templateAttributeError s =>
        have h4' : ms = [] := h4
        subst h4'
        cases h5
      | _ =>
        obtain ⟨y, hy, h10, _, _, s, h11⟩ := h4
        subst hy
        cases List.mem_singleton.1 h5
        exact .inr ⟨⟨h10, s, h11⟩, .inr ⟨_, rfl, fun s' => by simp⟩⟩

theorem check_tally (h : ReadyRun objs args all regions beh mark print ds) {d : Decoded} (hd : d ∈ ds) (hdir : getDirectives (mark d.template) = .ok [])
    {cfg0 : Cfg} {c : Coll} (hok : CollOK objs cfg0 c) (hc : ConfiguredBy args d.template c.cfg) (hmand : ∃ mand : List String, c.cfg.mandatory = mand.map .str)
    (hsame : ∀ r r' : RuleObj, r.info = r'.info → beh r = beh r') :
    ∃ out, checkWith all regions S beh name mark d.template (some c) = .ok out ∧ LettersFound objs args S beh mark d.template out := by
  obtain ⟨hE, ⟨b, hb⟩, -⟩ := h.decided d hd _ hc
  obtain ⟨-, hw, top, ht⟩ := h.decoded d hd
  obtain ⟨mand, hmand⟩ := hmand
  have hreg : (if regions.isEmpty then .ok true else regionsSupported all regions : PyM Bool) = .ok true := by
    rcases h.supported with rfl | hr
    · rfl
    · rw [hr]; split <;> rfl
  have hmk := h.marks d.template
  have hforce : ∀ r ∈ c.active, InForce objs args d.template r.info := fun r hr => by
    obtain ⟨r0, hr0, hi⟩ := active_info hok hr
    exact ⟨hi ▸ List.mem_map_of_mem hr0, fun cfg hcfg => by rw [configuredBy_unique hcfg hc]; exact active_enabled hok hr⟩
  have hactive : ∀ r : RuleObj, InForce objs args d.template r.info → ∃ r' ∈ c.active, r'.info = r.info ∧ beh r' = beh r := fun r hr => by
    obtain ⟨r0, hr0, hi⟩ := List.mem_map.1 hr.1
    obtain ⟨r', hr', hi'⟩ := active_of_enabled hok hr0 (by rw [hi]; exact hr.2 _ hc)
    exact ⟨r', hr', hi'.trans hi, hsame _ _ (hi'.trans hi)⟩
  cases hm : mark d.template with
  | dict m mtop =>
    rw [hm] at hmk hdir
    obtain ⟨raw, r1, r2, r3, -⟩ := C127_run S beh c (name d.template) m mtop (by unfold MWF; rw [hmk]; exact hw) hE
      (fun r _ => by rw [hmk]; exact h.settable d hd r)
    have r4 := run_placed (by unfold MWF; rw [hmk]; exact hw) hE (fun r _ => by rw [hmk]; exact h.settable d hd r) r1
    obtain ⟨kept, k1, -⟩ := C06_unique_ordered_complete [] mand raw
    have hck : lintTemplate all regions S beh c (name d.template) (.dict m mtop) = .ok (kept.mergeSort sortKeyLe) := by
      simp only [lintTemplate, runChecks, hreg, transformErrorRule, hb, r1, runnerRun, hdir, hmand, k1]
    obtain ⟨s1, s2⟩ := lintTemplate_spec hck hmand hdir r1
    have back : ∀ x ∈ raw, ∃ y ∈ kept.mergeSort sortKeyLe, y.rule.id = x.rule.id := fun x hx => by
      obtain ⟨y, hy, -, -, e, -⟩ := s2 x hx (by
        rintro ⟨⟨l, hl, _⟩, _⟩
        simp [dlookup] at hl)
      exact ⟨y, hy, e.symm⟩
    refine ⟨kept.mergeSort sortKeyLe, by simp only [checkWith, hm, hck], ?_, ?_⟩
    · intro x hx
      obtain ⟨r, hr, call, -, ⟨rs, p, msg, -, -, hs, -⟩ | ⟨hf, -⟩⟩ := r4 x (s1 x hx)
      · obtain ⟨r0, hr0, hi⟩ := active_info hok hr
        exact .inl ⟨r0, hr0, by rw [hs.1, hi]⟩
      · exact .inr hf.1
    · intro u l
      constructor
      · rintro ⟨x, hx, hl⟩
        obtain ⟨r, hr, call, hcall, ⟨rs, p, msg, rfl, hp, hs, hlost⟩ | ⟨hf, hwhy⟩⟩ := r4 x (s1 x hx)
        · refine .inl ⟨r, hforce r hr, ?_, by rw [hm]; exact ⟨rs, hcall, List.ne_nil_of_mem hp, hlost⟩⟩
          unfold HasLetter at hl
          rw [hs.1] at hl
          exact hl
        · refine .inr ⟨?_, r, hforce r hr, ?_⟩
          · unfold HasLetter at hl
            rw [hf.1] at hl
            exact hl
          · rw [hm]
            rcases hwhy with ⟨rs, rfl, hlost⟩ | ⟨e, rfl, he⟩
            · exact .inl ⟨rs, hcall, hlost⟩
            · exact .inr ⟨e, hcall, he⟩
      · rintro (⟨r, hr, hl, rs, hcall, hne, hlost⟩ | ⟨hl, r, hr, hbr⟩)
        · obtain ⟨r', hr', hi, hbeh⟩ := hactive r hr
          rw [hm] at hcall hlost
          rw [← hbeh] at hcall
          rcases r2 r' hr' rs hcall with hall | ⟨hl', -⟩
          · obtain ⟨pm, rest, rfl⟩ := List.exists_cons_of_ne_nil hne
            obtain ⟨x, hx, hs⟩ := hall pm.1 pm.2 List.mem_cons_self
            obtain ⟨y, hy, e⟩ := back x hx
            exact ⟨y, hy, by unfold HasLetter; rw [e, hs.1, hi]; exact hl⟩
          · exact absurd hl' hlost
        · obtain ⟨r', hr', hi, hbeh⟩ := hactive r hr
          rw [hm, ← hbeh] at hbr
          have : ∃ x ∈ raw, Failed r'.info x := by
            rcases hbr with ⟨rs, hcall, hlost⟩ | ⟨e, hcall, he⟩
            · rcases r2 r' hr' rs hcall with hall | ⟨-, hx⟩
              · obtain ⟨p, msg, e, hp, hbad⟩ := hlost
                obtain ⟨x, -, hs⟩ := hall p msg hp
                rw [hs.2.2.2] at hbad
                cases hbad
              · exact hx
            · rcases r3 r' hr' e hcall with ⟨s, hs⟩ | hx
              · exact absurd hs (he s)
              · exact hx
          obtain ⟨x, hx, hf⟩ := this
          obtain ⟨y, hy, e⟩ := back x hx
          exact ⟨y, hy, by unfold HasLetter; rw [e, hf.1]; exact hl⟩
  | _ => rw [hm, ht] at hmk; cases hmk

theorem template_rules {all' : List Decoded} (h : ReadyRun objs args all regions beh mark print all') {st : LintState} (hr : Reach objs args st)
    (hst : ∃ b, ignoreBadTemplate (sourcesWith args st) = .ok b) {d : Decoded} (hd : d ∈ all') :
    ∃ targs c b, getTemplateRules objs args st d = .ok ({ templateArgs := targs, cached := some c }, d.template, some c, []) ∧
      ignoreBadTemplate { args with template := targs } = .ok b := by
  obtain ⟨b, hb⟩ := hst
  obtain ⟨he, -, top, ht⟩ := h.decoded d hd
  obtain ⟨targs, cfg, b', h1, h2, h3⟩ := h.configured d hd
  have hcb : ConfiguredBy args d.template { cfg with incl := addDefaults cfg.incl } := ⟨targs, cfg, h1, h2, rfl⟩
  have hreg : Registrable (objs.map RuleObj.info) { cfg with incl := addDefaults cfg.incl } :=
    ⟨fun i hi => by obtain ⟨r, hr, rfl⟩ := List.mem_map.1 hi; exact (h.decided d hd _ hcb).2.2 r hr, h.configurable d hd _ hcb⟩
  suffices hcoll : ∃ c, getTemplateRules objs args st d = .ok ({ templateArgs := targs, cached := some c }, d.template, some c, []) by
    obtain ⟨c, hc⟩ := hcoll
    exact ⟨targs, c, b', hc, h3⟩
  simp only [getTemplateRules, hb, he, h1, h2]
  cases hc : st.cached with
  | none =>
    obtain ⟨c, hg⟩ := getRules_succeeds hreg
    exact ⟨c, by rw [hg]⟩
  | some c0 =>
    by_cases hemp : c0.rules.isEmpty = true
    · obtain ⟨c, hg⟩ := getRules_succeeds hreg
      exact ⟨c, by simp only [if_pos hemp, hg]⟩
    · obtain ⟨cfg0, hok⟩ := reach_cached hr c0 hc
      have hl : c0.objs.length = objs.length := by simpa using congrArg List.length hok.infos
      obtain ⟨c, hg⟩ := configure_succeeds (c := c0) (cfg := cfg) (by rw [hok.infos]; exact hreg)
        (fun i hi => by rw [hok.all] at hi; rw [hl]; exact List.mem_range.1 hi)
      exact ⟨c, by simp only [if_neg hemp, hg]⟩

theorem lintAll_tally {all' : List Decoded} (h : ReadyRun objs args all regions beh mark print all') (ht : ∀ d ∈ all', d.template.truthy = true)
    (hdir : ∀ d ∈ all', getDirectives (mark d.template) = .ok [])
    (hmand : ∀ d ∈ all', ∀ cfg, ConfiguredBy args d.template cfg → ∃ mand : List String, cfg.mandatory = mand.map .str)
    (hsame : ∀ r r' : RuleObj, r.info = r'.info → beh r = beh r') :
    ∀ (ds : List Decoded) (st : LintState), (∀ d ∈ ds, d ∈ all') → Reach objs args st → (∃ b, ignoreBadTemplate (sourcesWith args st) = .ok b) →
      ∃ outs, lintAll objs args (checkWith all regions S beh name mark) st ds = .ok outs ∧
        List.Forall₂ (fun d out => LettersFound objs args S beh mark d.template out) ds outs
  | [], st, _, _, _ => ⟨[], rfl, .nil⟩
  | d :: ds, st, hm, hr, hb => by
    have hd := hm d List.mem_cons_self
    obtain ⟨targs, c, b', hg, h3⟩ := template_rules h hr hb hd
    obtain ⟨targs', cfg', h1', h2', hok⟩ := template_coll hr hg
    have hcb : ConfiguredBy args d.template c.cfg := ⟨targs', cfg', h1', h2', hok.cfg⟩
    obtain ⟨out, hck, hout⟩ := check_tally (name := name) (S := S) h hd (hdir d hd) hok hcb (hmand d hd _ hcb) hsame
    obtain ⟨outs, ho, hf⟩ := lintAll_tally h ht hdir hmand hsame ds _ (fun x hx => hm x (List.mem_cons_of_mem _ hx)) (.step hr hg) ⟨b', h3⟩
    refine ⟨out :: outs, ?_, .cons hout hf⟩
    rw [lintAll, hg]
    simp only [ht d hd, if_true, hck, ho]

theorem forall₂_exists {α β : Type} {R : α → β → Prop} {P : α → Prop} {Q : β → Prop} {as : List α} {bs : List β} (h : List.Forall₂ R as bs)
    (hR : ∀ a b, R a b → (Q b ↔ P a)) : (∃ b ∈ bs, Q b) ↔ ∃ a ∈ as, P a := by
  induction h with
  | nil => simp
  | cons hab _ ih => simp [hR _ _ hab, ih]

/-- **C152** Every bit of the status of a run that is ready to start, in which no template is empty, no resource asks to ignore anything and a rule does the
same whatever its options. Bit 3 (8) says that a rule of level I in force had results in some template, bit 2 (4) the same of level W, and bit 1 (2) that a
rule of level E in force had results in some template or that any rule in force broke on one. There are no other bits. -/
theorem C152_status (h : ReadyRun objs args all regions beh mark print ds) (hp : ∀ ms, print ms = .ok ()) (hids : ∀ r ∈ objs, r.info.id ≠ "")
    (ht : ∀ d ∈ ds, d.template.truthy = true) (hdir : ∀ d ∈ ds, getDirectives (mark d.template) = .ok [])
    (hmand : ∀ d ∈ ds, ∀ cfg, ConfiguredBy args d.template cfg → ∃ mand : List String, cfg.mandatory = mand.map .str)
    (hsame : ∀ r r' : RuleObj, r.info = r'.info → beh r = beh r') (launch : Launch) :
    let status := runCommand launch objs args (checkWith all regions S beh name mark) print ds
    (status.testBit 3 = true ↔ ∃ d ∈ ds, ShownBy objs args S beh mark 'I' 'i' d.template) ∧
    (status.testBit 2 = true ↔ ∃ d ∈ ds, ShownBy objs args S beh mark 'W' 'w' d.template) ∧
    (status.testBit 1 = true ↔ ∃ d ∈ ds, ShownBy objs args S beh mark 'E' 'e' d.template ∨ BrokenBy objs args S beh mark d.template) ∧
    ∀ i, i ≠ 1 → i ≠ 2 → i ≠ 3 → status.testBit i = false := by
  obtain ⟨b, hb⟩ := h.start
  obtain ⟨outs, ho, hf⟩ := lintAll_tally (name := name) (S := S) h ht hdir hmand hsame ds {} (fun d hd => hd) .init ⟨b, hb⟩
  have hne : ∀ out ∈ outs, ∀ x ∈ out, x.rule.id ≠ "" := by
    have : ∀ out ∈ outs, ∃ d ∈ ds, LettersFound objs args S beh mark d.template out := fun out hout => by
      obtain ⟨i, hi, e⟩ := List.mem_iff_getElem.1 hout
      have hi' : i < ds.length := by rw [hf.length_eq]; exact hi
      have := (List.forall₂_iff_get.1 hf).2 i hi' hi
      simp only [List.get_eq_getElem, e] at this
      exact ⟨_, List.getElem_mem hi', this⟩
    intro out hout x hx
    obtain ⟨d, -, hd⟩ := this out hout
    rcases hd.1 x hx with ⟨r, hr, e⟩ | e
    · rw [e]; exact hids r hr
    · rw [e]; decide
  obtain ⟨b3, b2, b1, b0⟩ := C51_completed launch objs args (checkWith all regions S beh name mark) print ds outs ho (hp _) hne
  have no : ∀ u l, 'E' ≠ u → 'E' ≠ l → ¬ Lettered u l "E0002" := by
    rintro u l h1 h2 ⟨c, rest, e, h3⟩
    have e' : "E0002".toList = 'E' :: "0002".toList := by decide
    rw [e'] at e
    cases e
    rcases h3 with h3 | h3
    · exact h1 h3
    · exact h2 h3
  refine ⟨b3.trans (forall₂_exists hf fun d out hd => ?_), b2.trans (forall₂_exists hf fun d out hd => ?_), b1.trans (forall₂_exists hf fun d out hd => ?_), b0⟩
  · rw [show (∃ x ∈ out, IsInfo x) ↔ _ from hd.2 'I' 'i']
    exact or_iff_left fun h => no _ _ (by decide) (by decide) h.1
  · rw [show (∃ x ∈ out, IsWarning x) ↔ _ from hd.2 'W' 'w']
    exact or_iff_left fun h => no _ _ (by decide) (by decide) h.1
  · rw [show (∃ x ∈ out, IsError x) ↔ _ from hd.2 'E' 'e']
    exact or_congr_right ⟨fun h => h.2, fun h => ⟨⟨'E', "0002".toList, by decide, .inl rfl⟩, h⟩⟩

open Classical in
/-- **C152** The status as a number. -/
theorem C152_number (h : ReadyRun objs args all regions beh mark print ds) (hp : ∀ ms, print ms = .ok ()) (hids : ∀ r ∈ objs, r.info.id ≠ "")
    (ht : ∀ d ∈ ds, d.template.truthy = true) (hdir : ∀ d ∈ ds, getDirectives (mark d.template) = .ok [])
    (hmand : ∀ d ∈ ds, ∀ cfg, ConfiguredBy args d.template cfg → ∃ mand : List String, cfg.mandatory = mand.map .str)
    (hsame : ∀ r r' : RuleObj, r.info = r'.info → beh r = beh r') (launch : Launch) :
    runCommand launch objs args (checkWith all regions S beh name mark) print ds =
      (if ∃ d ∈ ds, ShownBy objs args S beh mark 'E' 'e' d.template ∨ BrokenBy objs args S beh mark d.template then 2 else 0) +
      (if ∃ d ∈ ds, ShownBy objs args S beh mark 'W' 'w' d.template then 4 else 0) +
      (if ∃ d ∈ ds, ShownBy objs args S beh mark 'I' 'i' d.template then 8 else 0) := by
  obtain ⟨b3, b2, b1, b0⟩ := C152_status (name := name) (S := S) h hp hids ht hdir hmand hsame launch
  simp only [← b3, ← b2, ← b1]
  generalize runCommand launch objs args (checkWith all regions S beh name mark) print ds = n at *
  have hlt : n < 2 ^ 4 := Nat.lt_pow_two_of_testBit n fun i hi => b0 i (by omega) (by omega) (by omega)
  have h0 := b0 0 (by decide) (by decide) (by decide)
  clear b3 b2 b1 b0
  revert h0
  have : n < 16 := hlt
  clear hlt
  interval_cases n <;> decide

/-- a warning that is always given, and a rule that never finds anything -/
def onlyWarns (r : RuleObj) : Behaviour :=
  if r.info.id = "W1001" then { whole := some fun _ => .ok [([.str "Resources"], "m")] }
  else {}

/-- a template with resources -/
def onlyResources : Val := .dict [(.str "Resources", .dict [(.str "B", .dict [(.str "Type", .str "AWS::S3::Bucket")])])]

theorem onlyResources_read : ReadPlain ⟨onlyResources, []⟩ :=
  ⟨rfl, by simp [onlyResources, Val.WF, Val.WFDict], ⟨_, _, rfl⟩, by decide +kernel, by decide +kernel⟩

example : ReadyRun (withIds ["W1001", "E1001"]) (c50Args [] false []) [] [] onlyWarns (markAll default) (fun _ => .ok ()) [⟨onlyResources, []⟩] ∧
    (∀ r r' : RuleObj, r.info = r'.info → onlyWarns r = onlyWarns r') ∧
    runCommand .script (withIds ["W1001", "E1001"]) (c50Args [] false []) (checkWith [] [] ⟨[], []⟩ onlyWarns (fun _ => "t") (markAll default))
      (fun _ => .ok ()) [⟨onlyResources, []⟩] = 4 ∧
    ShownBy (withIds ["W1001", "E1001"]) (c50Args [] false []) ⟨[], []⟩ onlyWarns (markAll default) 'W' 'w' onlyResources := by
  have hd : ∀ d ∈ [(⟨onlyResources, []⟩ : Decoded)], ReadPlain d := fun d h => by cases List.mem_singleton.1 h; exact onlyResources_read
  have hready : ReadyRun (withIds ["W1001", "E1001"]) (c50Args [] false []) [] [] onlyWarns (markAll default) (fun _ => .ok ()) [⟨onlyResources, []⟩] :=
    plain_ready (by decide) (fun r t => by unfold onlyWarns; split <;> rfl) hd
  have hsame : ∀ r r' : RuleObj, r.info = r'.info → onlyWarns r = onlyWarns r' := fun r r' e => by unfold onlyWarns; rw [e]
  have hrun : runCommand .script (withIds ["W1001", "E1001"]) (c50Args [] false []) (checkWith [] [] ⟨[], []⟩ onlyWarns (fun _ => "t") (markAll default))
      (fun _ => .ok ()) [⟨onlyResources, []⟩] = 4 := by decide +kernel
  refine ⟨hready, hsame, hrun, ?_⟩
  have hb := (C152_status (name := fun _ => "t") (S := ⟨[], []⟩) hready (fun _ => rfl)
    (fun r hr => by obtain ⟨i, hi, rfl⟩ := List.mem_map.1 hr; simp at hi; rcases hi with rfl | rfl <;> decide)
    (fun d h => by cases List.mem_singleton.1 h; rfl) (fun d h => (hd d h).directives)
    (fun d h cfg hc => by cases plain_configured (hd d h).args hc; exact ⟨[], rfl⟩) hsame .script).2.1
  rw [hrun] at hb
  obtain ⟨d, h, hs⟩ := hb.1 (by decide)
  cases List.mem_singleton.1 h
  exact hs

end CfnLint
