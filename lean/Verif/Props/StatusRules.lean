import Verif.Props.StatusUnion
/-
Property C155: the status of a run depends on nothing but the rules in force, and grows with them.
-/
namespace CfnLint

open Spec

variable {objs objs' : List RuleObj} {args args' : Sources} {all all' : List String} {regions regions' : List Val} {S : TypeSpecs} {beh : RuleObj → Behaviour}
  {name : Val → String} {mark : Val → MVal} {print print' : List Match → PyM Unit} {ds : List Decoded}

/-- the rules of one run in force are in force in another, and what the other ignores is ignored in the one -/
structure Spec.Covers (objs objs' : List RuleObj) (args args' : Sources) (mark : Val → MVal) (t : Val) : Prop where
  rules : ∀ info, InForce objs args t info → InForce objs' args' t info
  ignored : ∀ x, Ignored args' mark t x → Ignored args mark t x

theorem kept_mono {t : Val} (h : Covers objs objs' args args' mark t) {u l : Char} (hk : KeptBy objs args S beh name mark u l t) :
    KeptBy objs' args' S beh name mark u l t := by
  obtain ⟨r, hr, hl, rs, hc, hlost, p, msg, hp, x, hx, hn⟩ := hk
  exact ⟨r, h.rules _ hr, hl, rs, hc, hlost, p, msg, hp, x, hx, fun hi => hn (h.ignored x hi)⟩

theorem broken_mono {t : Val} (h : Covers objs objs' args args' mark t) (hb : BrokenBy objs args S beh mark t) : BrokenBy objs' args' S beh mark t := by
  obtain ⟨r, hr, hb⟩ := hb
  exact ⟨r, h.rules _ hr, hb⟩

/-- **C155** More rules in force and less ignored never clear a bit of the status. -/
theorem C155_grows (h : SteadyRun objs args all regions beh mark print ds) (h' : SteadyRun objs' args' all' regions' beh mark print' ds)
    (hc : ∀ d ∈ ds, Covers objs objs' args args' mark d.template) (launch launch' : Launch) {i : Nat}
    (hi : (runCommand launch objs args (checkWith all regions S beh name mark) print ds).testBit i = true) :
    (runCommand launch' objs' args' (checkWith all' regions' S beh name mark) print' ds).testBit i = true := by
  obtain ⟨a3, a2, a1, a0⟩ := C153_status (S := S) (name := name) h.ready h.prints h.ids h.nonempty h.directed h.mandatory h.same launch
  obtain ⟨b3, b2, b1, b0⟩ := C153_status (S := S) (name := name) h'.ready h'.prints h'.ids h'.nonempty h'.directed h'.mandatory h'.same launch'
  by_cases e1 : i = 1
  · subst e1
    obtain ⟨d, hd, hk⟩ := a1.1 hi
    exact b1.2 ⟨d, hd, hk.imp (kept_mono (hc d hd)) (broken_mono (hc d hd))⟩
  by_cases e2 : i = 2
  · subst e2
    obtain ⟨d, hd, hk⟩ := a2.1 hi
    exact b2.2 ⟨d, hd, kept_mono (hc d hd) hk⟩
  by_cases e3 : i = 3
  · subst e3
    obtain ⟨d, hd, hk⟩ := a3.1 hi
    exact b3.2 ⟨d, hd, kept_mono (hc d hd) hk⟩
  rw [a0 i e1 e2 e3] at hi
  cases hi

/-- **C155** Two runs with the same rules in force on every template, which ignore the same, have the same status, whatever else differs: the rules that are
not in force, the regions, how the program was started and how the findings are printed. -/
theorem C155_same (h : SteadyRun objs args all regions beh mark print ds) (h' : SteadyRun objs' args' all' regions' beh mark print' ds)
    (hr : ∀ d ∈ ds, ∀ info, InForce objs args d.template info ↔ InForce objs' args' d.template info)
    (hg : ∀ d ∈ ds, ∀ x, Ignored args mark d.template x ↔ Ignored args' mark d.template x) (launch launch' : Launch) :
    runCommand launch objs args (checkWith all regions S beh name mark) print ds =
      runCommand launch' objs' args' (checkWith all' regions' S beh name mark) print' ds := by
  refine Nat.eq_of_testBit_eq fun i => ?_
  rw [Bool.eq_iff_iff]
  exact ⟨C155_grows h h' (fun d hd => ⟨fun info => (hr d hd info).1, fun x => (hg d hd x).2⟩) launch launch',
    C155_grows h' h (fun d hd => ⟨fun info => (hr d hd info).2, fun x => (hg d hd x).1⟩) launch' launch⟩

/-- **C155** Rules that are not in force on any of the templates do not matter. -/
theorem C155_disabled {extra : List RuleObj} (h : SteadyRun objs args all regions beh mark print ds) (h' : SteadyRun (objs ++ extra) args all regions beh mark print ds)
    (hx : ∀ d ∈ ds, ∀ r ∈ extra, ∀ cfg, ConfiguredBy args d.template cfg → isRuleEnabled cfg r.info ≠ .ok true) (launch : Launch) :
    runCommand launch (objs ++ extra) args (checkWith all regions S beh name mark) print ds =
      runCommand launch objs args (checkWith all regions S beh name mark) print ds := by
  refine C155_same h' h (fun d hd info => ⟨?_, ?_⟩) (fun _ _ _ => Iff.rfl) launch launch
  · rintro ⟨hm, hen⟩
    rw [List.map_append, List.mem_append] at hm
    rcases hm with hm | hm
    · exact ⟨hm, hen⟩
    · obtain ⟨r, hr, rfl⟩ := List.mem_map.1 hm
      obtain ⟨targs, cfg, b, h1, h2, -⟩ := h.ready.configured d hd
      have hcb : ConfiguredBy args d.template { cfg with incl := addDefaults cfg.incl } := ⟨targs, cfg, h1, h2, rfl⟩
      exact absurd (hen _ hcb) (hx d hd r hr _ hcb)
  · rintro ⟨hm, hen⟩
    exact ⟨by rw [List.map_append]; exact List.mem_append_left _ hm, hen⟩

/-- the second configuration asks for at least as much as the first: it ignores no more, includes no less, has no fewer mandatory checks and no fewer
experimental rules -/
structure Spec.Wider (cfg cfg' : Cfg) : Prop where
  texts : ∃ ign inc man : List String, cfg.ignore = ign.map .str ∧ cfg.incl = inc.map .str ∧ cfg.mandatory = man.map .str
  texts' : ∃ ign inc man : List String, cfg'.ignore = ign.map .str ∧ cfg'.incl = inc.map .str ∧ cfg'.mandatory = man.map .str
  ignore : ∀ v ∈ cfg'.ignore, v ∈ cfg.ignore
  incl : ∀ v ∈ cfg.incl, v ∈ cfg'.incl
  mandatory : ∀ v ∈ cfg.mandatory, v ∈ cfg'.mandatory
  experimental : cfg.includeExperimental = true → cfg'.includeExperimental = true

theorem mem_texts {a b : List String} (h : ∀ v ∈ a.map Val.str, v ∈ b.map Val.str) : ∀ p ∈ a, p ∈ b := fun p hp => by
  obtain ⟨q, hq, e⟩ := List.mem_map.1 (h _ (List.mem_map_of_mem hp))
  cases e
  exact hq

theorem wider_enabled {cfg cfg' : Cfg} (h : Wider cfg cfg') {info : RuleInfo} (he : isRuleEnabled cfg info = .ok true) : isRuleEnabled cfg' info = .ok true := by
  obtain ⟨ign, inc, man, e1, e2, e3⟩ := h.texts
  obtain ⟨ign', inc', man', f1, f2, f3⟩ := h.texts'
  have h1 := h.ignore
  have h2 := h.incl
  have h3 := h.mandatory
  unfold isRuleEnabled at he ⊢
  rw [e1, e2, e3, C01_enabled_iff] at he
  rw [e1, f1] at h1
  rw [e2, f2] at h2
  rw [e3, f3] at h3
  rw [f1, f2, f3, C01_enabled_iff]
  obtain ⟨a1, ⟨p, hp, hpre⟩, a3⟩ := he
  refine ⟨fun hx => h.experimental (a1 hx), ⟨p, mem_texts h2 p hp, hpre⟩, ?_⟩
  rcases a3 with ⟨q, hq, hpre⟩ | hno
  · exact .inl ⟨q, mem_texts h3 q hq, hpre⟩
  · exact .inr fun ⟨q, hq, hne⟩ => hno ⟨q, mem_texts h1 q hq, hne⟩

/-- **C155** Ignoring fewer checks, including more, having more mandatory checks, allowing experimental rules and loading more rules never clear a bit of the
status. -/
theorem C155_options (h : SteadyRun objs args all regions beh mark print ds) (h' : SteadyRun objs' args' all' regions' beh mark print' ds)
    (hobjs : ∀ r ∈ objs, r ∈ objs')
    (hw : ∀ d ∈ ds, ∀ cfg cfg', ConfiguredBy args d.template cfg → ConfiguredBy args' d.template cfg' → Wider cfg cfg') (launch launch' : Launch) {i : Nat}
    (hi : (runCommand launch objs args (checkWith all regions S beh name mark) print ds).testBit i = true) :
    (runCommand launch' objs' args' (checkWith all' regions' S beh name mark) print' ds).testBit i = true := by
  refine C155_grows h h' (fun d hd => ?_) launch launch' hi
  obtain ⟨targs, cfg, b, h1, h2, -⟩ := h.ready.configured d hd
  have hcb : ConfiguredBy args d.template { cfg with incl := addDefaults cfg.incl } := ⟨targs, cfg, h1, h2, rfl⟩
  refine ⟨fun info hf => ⟨?_, fun cfg' hc' => wider_enabled (hw d hd _ _ hcb hc') (hf.2 _ hcb)⟩, ?_⟩
  · obtain ⟨r, hr, rfl⟩ := List.mem_map.1 hf.1
    exact List.mem_map_of_mem (hobjs r hr)
  · rintro x ⟨dirs, cfg', mand', e1, e2, e3, hs, hno⟩
    have hwide := hw d hd _ _ hcb e2
    obtain ⟨-, -, man, -, -, em⟩ := hwide.texts
    have hm := hwide.mandatory
    rw [em, e3] at hm
    exact ⟨dirs, _, man, e1, hcb, em, hs, fun ⟨p, hp, hpre⟩ => hno ⟨p, mem_texts hm p hp, hpre⟩⟩

/-- a run with a rule of level W and a rule of level I, which is not in force unless asked for -/
theorem quietInfo_steady {ids : List String} (hids : ids = ["W1001"] ∨ ids = ["W1001", "I1001"]) :
    SteadyRun (withIds ids) (c50Args [] false []) [] [] onlyWarns (markAll default) (fun _ => .ok ()) [⟨onlyResources, []⟩] where
  ready := plain_ready (by rcases hids with rfl | rfl <;> decide) (fun r t => by unfold onlyWarns; split <;> rfl)
    (fun d h => by cases List.mem_singleton.1 h; exact onlyResources_read)
  prints := fun _ => rfl
  ids := by rcases hids with rfl | rfl <;> decide
  nonempty := fun d h => by cases List.mem_singleton.1 h; rfl
  directed := fun d h => by cases List.mem_singleton.1 h; exact ⟨[], onlyResources_read.directives, rfl⟩
  mandatory := fun d h cfg hc => by
    cases List.mem_singleton.1 h
    cases plain_configured onlyResources_read.args hc
    exact ⟨[], rfl⟩
  same := fun r r' e => by unfold onlyWarns; rw [e]

example : runCommand .script (withIds ["W1001"] ++ withIds ["I1001"]) (c50Args [] false [])
      (checkWith [] [] ⟨[], []⟩ onlyWarns (fun _ => "t") (markAll default)) (fun _ => .ok ()) [⟨onlyResources, []⟩] = 4 := by
  rw [C155_disabled (extra := withIds ["I1001"]) (quietInfo_steady (.inl rfl)) (quietInfo_steady (ids := ["W1001", "I1001"]) (.inr rfl))
    (fun d h r hr cfg hc => by
      cases List.mem_singleton.1 h
      cases List.mem_singleton.1 hr
      cases plain_configured onlyResources_read.args hc
      decide)]
  decide +kernel

example : Wider { ignore := [.str "W"], incl := addDefaults [] } { incl := addDefaults [.str "I"], mandatory := [.str "E1"] } :=
  ⟨⟨["W"], ["W", "E"], [], rfl, by decide, rfl⟩, ⟨[], ["I", "W", "E"], ["E1"], rfl, by decide, rfl⟩, by decide, by decide, by decide, by decide⟩

example : (runCommand .modul (withIds ["W1001", "I1001"]) (c50Args [] false [])
    (checkWith [] [] ⟨[], []⟩ onlyWarns (fun _ => "t") (markAll default)) (fun _ => .ok ()) [⟨onlyResources, []⟩]).testBit 2 = true := by
  refine C155_options (launch := .script) (quietInfo_steady (.inl rfl)) (quietInfo_steady (.inr rfl)) (by decide) (fun d h cfg cfg' hc hc' => ?_) .modul
    (by decide +kernel)
  cases List.mem_singleton.1 h
  cases plain_configured onlyResources_read.args hc
  cases plain_configured onlyResources_read.args hc'
  exact ⟨⟨[], ["W", "E"], [], rfl, by decide, rfl⟩, ⟨[], ["W", "E"], [], rfl, by decide, rfl⟩, fun _ h => h, fun _ h => h, fun _ h => h, fun h => h⟩

end CfnLint
