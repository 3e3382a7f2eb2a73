import Verif.Model.SamRun
import Verif.Spec.SamRun
import Verif.Props.Core
import Verif.Lemmas.Dict
/-
C94: the serverless transformation is done exactly when it is asked for, and its failures are reported.
-/
namespace CfnLint
open Spec

theorem wantsSam_iff {kvs : List (Key × Val)} (hk : (kvs.map Prod.fst).Nodup) : ∃ b, wantsSam (.dict kvs) = .ok b ∧ (b = true ↔ AsksSam kvs) := by
  unfold wantsSam
  simp only [Val.getD]
  have hone : ∀ {v w : Val}, (Key.str "Transform", v) ∈ kvs → (Key.str "Transform", w) ∈ kvs → v = w := by
    intro v w h1 h2
    have a1 := dlookup_of_mem hk h1
    have a2 := dlookup_of_mem hk h2
    rw [a1] at a2
    injection a2
  cases hd : dlookup (Key.str "Transform") kvs with
  | none =>
    have hno : ∀ v, (Key.str "Transform", v) ∉ kvs := fun v hv => by
      rw [dlookup_of_mem hk hv] at hd
      cases hd
    refine ⟨_, rfl, ?_⟩
    constructor
    · intro h; simp at h
    · rintro (h | ⟨xs, h, _⟩)
      · exact absurd h (hno _)
      · exact absurd h (hno _)
  | some v =>
    have hv := dlookup_mem hd
    simp only [Option.getD_some]
    split
    · rename_i e; cases e
    · rename_i xs e
      injection e with e
      subst e
      refine ⟨_, rfl, ?_⟩
      simp only [List.any_eq_true, decide_eq_true_eq]
      constructor
      · rintro ⟨x, hx, rfl⟩; exact .inr ⟨xs, hv, hx⟩
      · rintro (h | ⟨ys, h, hy⟩)
        · have := hone h hv; cases this
        · have := hone h hv
          injection this with this
          subst this
          exact ⟨_, hy, rfl⟩
    · rename_i w hnl e
      injection e with e
      subst e
      refine ⟨_, rfl, ?_⟩
      rw [decide_eq_true_eq]
      constructor
      · rintro rfl; exact .inl hv
      · rintro (h | ⟨ys, h, hy⟩)
        · exact hone hv h
        · have := hone hv h
          subst this
          exact absurd rfl (hnl ys)

/-- **C94** A template that does not ask for the transformation is left as it is: no findings, nothing saved, no region set. -/
theorem C94_not_asked {translate : Translator} {convert : Val → Val} {file : String} {kvs : List (Key × Val)} {regions : List Val}
    (hk : (kvs.map Prod.fst).Nodup) (h : ¬ AsksSam kvs) :
    runTransform translate convert file (.dict kvs) regions = .ok (⟨[], some (.dict kvs), none⟩, none) := by
  obtain ⟨b, hb, hiff⟩ := wantsSam_iff hk
  cases b with
  | true => exact absurd (hiff.1 rfl) h
  | false => unfold runTransform; rw [hb]

/-- a template that asks is handed to the translator -/
theorem runTransform_asked {translate : Translator} {convert : Val → Val} {file : String} {kvs : List (Key × Val)} {r : Val} {regions : List Val}
    (hk : (kvs.map Prod.fst).Nodup) (h : AsksSam kvs) : runTransform translate convert file (.dict kvs) (r :: regions) =
      .ok (transformTemplate translate convert file (.dict kvs) r, some ((dlookup (Key.str "Globals") kvs).getD (.dict []))) := by
  obtain ⟨b, hb, hiff⟩ := wantsSam_iff hk
  have := hiff.2 h
  subst this
  unfold runTransform
  rw [hb]
  rfl

/-- **C94** It raises exactly if the transformation is asked for and there is no region. -/
theorem C94_raises_iff {translate : Translator} {convert : Val → Val} {file : String} {kvs : List (Key × Val)} {regions : List Val}
    (hk : (kvs.map Prod.fst).Nodup) :
    (∃ e, runTransform translate convert file (.dict kvs) regions = .error e) ↔ AsksSam kvs ∧ regions = [] := by
  constructor
  · rintro ⟨e, he⟩
    by_cases h : AsksSam kvs
    · cases regions with
      | nil => exact ⟨h, rfl⟩
      | cons r rs => rw [runTransform_asked hk h] at he; cases he
    · rw [C94_not_asked hk h] at he; cases he
  · rintro ⟨h, rfl⟩
    obtain ⟨b, hb, hiff⟩ := wantsSam_iff hk
    have := hiff.2 h
    subst this
    refine ⟨.indexError "list index out of range", ?_⟩
    unfold runTransform
    rw [hb]
    rfl

/-- **C94** When the translator succeeds, what is linted is the converted result of translating the template with its local code replaced; the old
`Globals` are kept for the rules. -/
theorem C94_translated {translate : Translator} {convert : Val → Val} {file : String} {kvs : List (Key × Val)} {r : String} {regions : List Val}
    {t' t'' u : Val} {ps : List Val} (hk : (kvs.map Prod.fst).Nodup) (h : AsksSam kvs) (hr : replaceLocalCode (.dict kvs) = .ok (t', ps))
    (ht : translate t' ps = (t'', .ok u)) : runTransform translate convert file (.dict kvs) (.str r :: regions) =
      .ok (⟨[], some (convert u), some r⟩, some ((dlookup (Key.str "Globals") kvs).getD (.dict []))) := by
  rw [runTransform_asked hk h]
  simp only [transformTemplate, hr, ht]

/-- **C94** The findings are those of the failure: one for each cause of an invalid document, otherwise one. -/
theorem C94_findings {translate : Translator} {convert : Val → Val} {file : String} {kvs : List (Key × Val)} {r : String} {regions : List Val}
    {out : SamOut} {g : Option Val} (hk : (kvs.map Prod.fst).Nodup)
    (h : runTransform translate convert file (.dict kvs) (.str r :: regions) = .ok (out, g)) (m : Match) :
    m ∈ out.found ↔ AsksSam kvs ∧ ∃ text, m = { line := 1, col := 1, lineEnd := 1, colEnd := 1, filename := file, rule := transformErrorRule, message := "Error transforming template: " ++ text } ∧
      ((∃ e, replaceLocalCode (.dict kvs) = .error e ∧ text = e.text) ∨
       ∃ t' ps t'' e, replaceLocalCode (.dict kvs) = .ok (t', ps) ∧ translate t' ps = (t'', .error e) ∧
        ((∃ causes, e = .invalid causes ∧ text ∈ causes) ∨ e = .other text)) := by
  simp only [show ∀ text, ({ line := 1, col := 1, lineEnd := 1, colEnd := 1, filename := file, rule := transformErrorRule, message := "Error transforming template: " ++ text } : Match) = samMatch file text from fun _ => rfl]
  by_cases ha : AsksSam kvs
  · rw [runTransform_asked hk ha] at h
    simp only [Except.ok.injEq, Prod.mk.injEq] at h
    obtain ⟨h, _⟩ := h
    subst h
    simp only [ha, true_and]
    unfold transformTemplate
    cases hr : replaceLocalCode (.dict kvs) with
    | error e => simp
    | ok x =>
      obtain ⟨t', ps⟩ := x
      cases ht : translate t' ps with
      | mk t'' res =>
        cases res with
        | ok u => simp [ht]
        | error e =>
          cases e with
          | invalid causes =>
            simp [ht]
            constructor
            · rintro ⟨a, h1, h2⟩; exact ⟨a, h2.symm, h1⟩
            · rintro ⟨a, h1, h2⟩; exact ⟨a, h2, h1.symm⟩
          | other s => simp [ht]
  · rw [C94_not_asked hk ha] at h
    simp only [Except.ok.injEq, Prod.mk.injEq] at h
    obtain ⟨h, _⟩ := h
    subst h
    simp [ha]

/-- **C94** Nothing is found exactly if the transformation was not asked for or succeeded, or if the document was called invalid without a cause: then
the template that was not translated goes on to the rules. -/
theorem C94_silent_iff {translate : Translator} {convert : Val → Val} {file : String} {kvs : List (Key × Val)} {r : String} {regions : List Val}
    {out : SamOut} {g : Option Val} (hk : (kvs.map Prod.fst).Nodup)
    (h : runTransform translate convert file (.dict kvs) (.str r :: regions) = .ok (out, g)) :
    out.found = [] ↔ (¬ AsksSam kvs ∧ out.template = some (.dict kvs)) ∨ (AsksSam kvs ∧ ∃ t' ps t'', replaceLocalCode (.dict kvs) = .ok (t', ps) ∧
      ((∃ u, translate t' ps = (t'', .ok u) ∧ out.template = some (convert u)) ∨ (translate t' ps = (t'', .error (.invalid [])) ∧ out.template = some t''))) := by
  by_cases ha : AsksSam kvs
  · rw [runTransform_asked hk ha] at h
    simp only [Except.ok.injEq, Prod.mk.injEq] at h
    obtain ⟨h, _⟩ := h
    subst h
    simp only [ha, not_true_eq_false, true_and, false_and, false_or]
    unfold transformTemplate
    cases hr : replaceLocalCode (.dict kvs) with
    | error e => simp
    | ok x =>
      obtain ⟨t', ps⟩ := x
      cases ht : translate t' ps with
      | mk t'' res =>
        cases res with
        | ok u =>
          simp only [ht, true_iff]
          exact ⟨t', ps, t'', rfl, .inl ⟨u, ht, rfl⟩⟩
        | error e =>
          cases e with
          | invalid causes =>
            simp only [ht, List.map_eq_nil_iff]
            constructor
            · rintro rfl; exact ⟨t', ps, t'', rfl, .inr ⟨ht, rfl⟩⟩
            · rintro ⟨a, b, c, he, ⟨u, hu, _⟩ | ⟨hu, _⟩⟩
              · injection he with he; injection he with e1 e2; subst e1 e2; rw [ht] at hu; cases hu
              · injection he with he; injection he with e1 e2; subst e1 e2; rw [ht] at hu
                injection hu with _ hu; injection hu with hu; injection hu
          | other s =>
            simp only [ht, List.cons_ne_nil, false_iff]
            rintro ⟨a, b, c, he, ⟨u, hu, _⟩ | ⟨hu, _⟩⟩
            · injection he with he; injection he with e1 e2; subst e1 e2; rw [ht] at hu; cases hu
            · injection he with he; injection he with e1 e2; subst e1 e2; rw [ht] at hu
              injection hu with _ hu; injection hu with hu; cases hu
  · rw [C94_not_asked hk ha] at h
    simp only [Except.ok.injEq, Prod.mk.injEq] at h
    obtain ⟨h, _⟩ := h
    subst h
    simp [ha]

/-- **C94** A template that asks for the transformation and cannot be translated is not linted: what `run_checks` returns are the failures, or nothing
when E0001 is not enabled, whatever the rules would find. The translator names at least one cause when it calls a document invalid. -/
theorem C94_failure_reported {translate : Translator} {convert : Val → Val} {file : String} {kvs : List (Key × Val)} {r : String} {regions : List Val}
    {out : SamOut} {g : Option Val} {all : List String} {regs : List Val} {cfg : Cfg} {run : PyM (List Match)} {res : List Match}
    (hk : (kvs.map Prod.fst).Nodup) (ha : AsksSam kvs) (hc : ∀ t ps t', translate t ps ≠ (t', .error (.invalid [])))
    (hf : ∀ t' ps, replaceLocalCode (.dict kvs) = .ok (t', ps) → ∃ t'' e, translate t' ps = (t'', .error e))
    (h : runTransform translate convert file (.dict kvs) (.str r :: regions) = .ok (out, g))
    (hres : runChecks all regs cfg (.ok ()) (.ok out.found) run = .ok res) :
    out.found ≠ [] ∧ (∀ m ∈ out.found, m.rule = transformErrorRule ∧ m.filename = file ∧ m.line = 1) ∧
    ((isRuleEnabled cfg transformErrorRule = .ok true ∧ res = out.found) ∨ (isRuleEnabled cfg transformErrorRule = .ok false ∧ res = [])) := by
  have hne : out.found ≠ [] := by
    intro he
    rcases (C94_silent_iff hk h).1 he with ⟨hno, _⟩ | ⟨_, t', ps, t'', hr, ⟨u, hu, _⟩ | ⟨hu, _⟩⟩
    · exact hno ha
    · obtain ⟨_, e, he⟩ := hf t' ps hr
      rw [hu] at he
      cases he
    · exact hc _ _ _ hu
  refine ⟨hne, ?_, ?_⟩
  · intro m hm
    obtain ⟨_, text, rfl, _⟩ := (C94_findings hk h m).1 hm
    exact ⟨rfl, rfl, rfl⟩
  · cases hout : out.found with
    | nil => exact absurd hout hne
    | cons m ms =>
      rw [hout] at hres
      exact C13_transform_short_circuit all regs cfg m ms run res hres

/-! ### Examples -/

def exSam : List (Key × Val) := [(.str "Transform", .list [.str "AWS::Serverless-2016-10-31"]), (.str "Resources", .dict [])]

theorem exSam_asks : AsksSam exSam := .inr ⟨_, List.mem_cons_self, List.mem_cons_self⟩

/-- the hypotheses of `C94_translated` are met -/
example : runTransform (fun t _ => (t, .ok (.dict []))) id "f" (.dict exSam) [.str "us-east-1"] =
    .ok (⟨[], some (.dict []), some "us-east-1"⟩, some (.dict [])) :=
  C94_translated (by simp [exSam]) exSam_asks rfl rfl

/-- the hypotheses of `C94_failure_reported`, `C94_findings` and `C94_silent_iff` are met -/
example : runChecks [] [] { incl := [.str "E"] } (.ok ()) (.ok [samMatch "f" "a", samMatch "f" "b"]) (.error (.other "unused")) =
      .ok [samMatch "f" "a", samMatch "f" "b"] ∧
    [samMatch "f" "a", samMatch "f" "b"] ≠ [] :=
  ⟨by decide, (C94_failure_reported (translate := fun t _ => (t, .error (.invalid ["a", "b"]))) (convert := id) (file := "f") (r := "us-east-1") (regions := [])
    (cfg := { incl := [.str "E"] }) (all := []) (regs := []) (run := .error (.other "unused")) (res := [samMatch "f" "a", samMatch "f" "b"])
    (out := ⟨[samMatch "f" "a", samMatch "f" "b"], some (.dict exSam), some "us-east-1"⟩) (g := some (.dict []))
    (by simp [exSam]) exSam_asks (by intro t ps t' h; simp at h) (fun t' _ _ => ⟨t', _, rfl⟩) rfl (by decide)).1⟩

/-- the hypotheses of `C94_not_asked` are met; the name inside an object does not count -/
example : ¬ AsksSam [(.str "Transform", .dict [(.str "Name", .str "AWS::Serverless-2016-10-31")])] := by
  rintro (h | ⟨xs, h, _⟩) <;> simp at h

/-- without a region it raises -/
example : ∃ e, runTransform (fun t _ => (t, .ok t)) id "f" (.dict exSam) [] = .error e := (C94_raises_iff (by simp [exSam])).2 ⟨exSam_asks, rfl⟩

end CfnLint
