import Verif.Spec.Checks
/- Lemmas about sequences of checks. -/
namespace CfnLint
open Spec

theorem contributes_error {filename rid : String} {e : PyErr}
    (h : ∀ t, e ≠ .templateAttributeError t) :
    Contributes filename rid (.error e) [ruleErrorMatch filename rid e] := by
  unfold Contributes
  cases e with
  | templateAttributeError t => exact absurd rfl (h t)
  | _ => exact ⟨_, rfl, rfl, rfl, rfl, _, rfl⟩

theorem runCheck_enabled (cfg : Cfg) (hE : isRuleEnabled cfg { id := "E0002" } = .ok true)
    (filename rid : String) (chk : PyM (List Match)) :
    ∃ ms, runCheck cfg filename rid chk = .ok (some ms) ∧ Contributes filename rid chk ms := by
  have hE' : isRuleEnabled cfg ruleErrorRule = .ok true := hE
  cases chk with
  | ok ms => exact ⟨ms, rfl, rfl⟩
  | error e =>
    by_cases h : ∃ t, e = .templateAttributeError t
    · obtain ⟨t, rfl⟩ := h; exact ⟨[], rfl, rfl⟩
    · refine ⟨[ruleErrorMatch filename rid e], ?_, contributes_error (fun t ht => h ⟨t, ht⟩)⟩
      cases e with
      | templateAttributeError t => exact absurd ⟨t, rfl⟩ h
      | _ => simp only [runCheck, hE']

theorem runChecksSeq_enabled (cfg : Cfg) (hE : isRuleEnabled cfg { id := "E0002" } = .ok true)
    (filename : String) : ∀ (checks : List (String × PyM (List Match))) (acc : List Match),
    ∃ out, runChecksSeq cfg filename checks acc = .ok (acc ++ out) ∧ RunOf filename checks out := by
  intro checks
  induction checks with
  | nil => intro acc; exact ⟨[], by simp [runChecksSeq], .nil⟩
  | cons x rest ih =>
    intro acc
    obtain ⟨rid, chk⟩ := x
    obtain ⟨ms, h1, h2⟩ := runCheck_enabled cfg hE filename rid chk
    obtain ⟨out, h3, h4⟩ := ih (acc ++ ms)
    exact ⟨ms ++ out, by simp [runChecksSeq, h1, h3], .cons h2 h4⟩

theorem runChecksSeq_nocrash (cfg : Cfg) (filename : String) :
    ∀ (checks : List (String × PyM (List Match))),
    (∀ rid chk, (rid, chk) ∈ checks →
      (∃ ms, chk = .ok ms) ∨ ∃ t, chk = .error (.templateAttributeError t)) →
    ∀ acc : List Match,
    ∃ out, runChecksSeq cfg filename checks acc = .ok (acc ++ out) ∧ RunOf filename checks out := by
  intro checks
  induction checks with
  | nil => intro _ acc; exact ⟨[], by simp [runChecksSeq], .nil⟩
  | cons x rest ih =>
    intro h acc
    obtain ⟨rid, chk⟩ := x
    have : ∃ ms, runCheck cfg filename rid chk = .ok (some ms) ∧ Contributes filename rid chk ms := by
      rcases h rid chk List.mem_cons_self with ⟨ms, rfl⟩ | ⟨t, rfl⟩
      · exact ⟨ms, rfl, rfl⟩
      · exact ⟨[], rfl, rfl⟩
    obtain ⟨ms, h1, h2⟩ := this
    obtain ⟨out, h3, h4⟩ := ih (fun a b hab => h a b (List.mem_cons_of_mem _ hab)) (acc ++ ms)
    exact ⟨ms ++ out, by simp [runChecksSeq, h1, h3], .cons h2 h4⟩

theorem runOf_mem {filename : String} {checks : List (String × PyM (List Match))} {out : List Match}
    (h : RunOf filename checks out) {rid : String} {ms : List Match} (hm : (rid, .ok ms) ∈ checks) :
    ∀ m ∈ ms, m ∈ out := by
  induction h with
  | nil => cases hm
  | cons hc hr ih =>
    intro m hmm
    cases hm with
    | head => rw [List.mem_append]; left; unfold Contributes at hc; simp only at hc; rw [hc]; exact hmm
    | tail _ h => rw [List.mem_append]; right; exact ih h m hmm

end CfnLint
