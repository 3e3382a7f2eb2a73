import Mathlib.Logic.Basic
import Verif.Model.Rules
import Verif.Spec.Rules
/- Auxiliary lemmas about `Verif.Model.Rules`. -/
namespace CfnLint
open Spec

theorem startsWith_iff (s p : String) : startsWith s p = true ↔ IsPrefix p s := by
  unfold startsWith IsPrefix
  rw [List.isPrefixOf_iff_prefix]
  constructor
  · rintro ⟨t, ht⟩
    refine ⟨String.ofList t, ?_⟩
    apply String.ext
    simp [ht]
  · rintro ⟨t, rfl⟩
    exact ⟨t.toList, by simp⟩

theorem includeLoop_str (id : String) : ∀ (l : List String) (acc : Bool),
    includeLoop id acc (l.map .str) = .ok (acc || l.any (startsWith id)) := by
  intro l
  induction l with
  | nil => intro acc; simp [includeLoop]
  | cons x xs ih =>
    intro acc
    simp only [List.map_cons, includeLoop, startsWithV, List.any_cons]
    rw [ih]
    cases startsWith id x <;> simp

theorem mandatoryLoop_str (id : String) : ∀ (l : List String),
    mandatoryLoop id (l.map .str) = .ok (l.any (startsWith id)) := by
  intro l
  induction l with
  | nil => simp [mandatoryLoop]
  | cons x xs ih =>
    simp only [List.map_cons, mandatoryLoop, startsWithV, List.any_cons]
    rw [ih]
    cases startsWith id x <;> simp

theorem ignoreLoop_str (id : String) : ∀ (l : List String),
    ignoreLoop id (l.map .str) = .ok (l.any (fun p => startsWith id p && p != "")) := by
  intro l
  induction l with
  | nil => simp [ignoreLoop]
  | cons x xs ih =>
    have e : (x != "") = (Val.str x).truthy := rfl
    simp only [List.map_cons, ignoreLoop, startsWithV, List.any_cons]
    rw [ih, e]
    cases startsWith id x <;> cases (Val.str x).truthy <;> simp

/-- Closed form of `isEnabled` for string lists. -/
theorem isEnabled_str (r : RuleInfo) (e : Bool) (ign inc man : List String) :
    isEnabled r e (ign.map .str) (inc.map .str) (man.map .str) =
      .ok ((!r.experimental || e) && inc.any (startsWith r.id) &&
        (man.any (startsWith r.id) || !ign.any (fun p => startsWith r.id p && p != ""))) := by
  unfold isEnabled
  rw [includeLoop_str, mandatoryLoop_str, ignoreLoop_str]
  cases r.experimental <;> cases e <;> simp <;>
  cases inc.any (startsWith r.id) <;> simp <;>
  cases man.any (startsWith r.id) <;> simp <;>
  cases ign.any (fun p => startsWith r.id p && p != "") <;> simp

theorem isEnabled_str_iff (r : RuleInfo) (e : Bool) (ign inc man : List String) :
    isEnabled r e (ign.map .str) (inc.map .str) (man.map .str) = .ok true ↔
      Enabled r.id r.experimental e ign inc man := by
  rw [isEnabled_str]
  unfold Enabled
  simp only [Except.ok.injEq, Bool.and_eq_true, Bool.or_eq_true, Bool.not_eq_true',
    List.any_eq_true, startsWith_iff, and_assoc]
  refine and_congr ?_ (and_congr Iff.rfl (or_congr Iff.rfl ?_))
  · cases r.experimental <;> cases e <;> simp
  · rw [← Bool.not_eq_true, not_iff_not]
    
    simp only [List.any_eq_true, Bool.and_eq_true, startsWith_iff, bne_iff_ne]
    constructor
    · rintro ⟨p, hp, h1, h2⟩; exact ⟨p, hp, h2, h1⟩
    · rintro ⟨p, hp, h1, h2⟩; exact ⟨p, hp, h2, h1⟩

theorem isEnabled_str_ok (r : RuleInfo) (e : Bool) (ign inc man : List String) :
    ∃ b, isEnabled r e (ign.map .str) (inc.map .str) (man.map .str) = .ok b :=
  ⟨_, isEnabled_str r e ign inc man⟩

end CfnLint
