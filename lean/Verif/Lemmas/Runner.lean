import Verif.Lemmas.Rules
import Verif.Lemmas.Dict
import Verif.Spec.Runner
namespace CfnLint
open Spec

theorem eqv_iff (a b : Match) : a.eqv b = true ↔ SameFinding a b := by
  unfold Match.eqv Match.key SameFinding
  simp only [beq_iff_eq, Prod.mk.injEq]

theorem dirCovers_iff (d : Dir) (m : Match) : dirCovers d m = true ↔ Touches d m := by
  unfold dirCovers Touches
  by_cases h1 : d.startLine < m.line ∧ m.line < d.endLine
  · simp [h1]
  · by_cases h2 : d.startLine = m.line ∧ d.startCol ≤ m.col
    · simp [h2.1, h2.2]
    · by_cases h3 : d.endLine = m.line ∧ d.endCol ≥ m.colEnd
      · simp [h3.1]; grind
      · simp; grind

theorem touches_iff_inSpan (d : Dir) (m : Match) (h : d.startLine < d.endLine) :
    Touches d m ↔ InSpan d m := by
  unfold Touches InSpan PosLE
  omega

theorem mandatoryKeeps_str (id : String) : ∀ (l : List String),
    mandatoryKeeps id (l.map .str) = .ok (l.any (startsWith id)) := by
  intro l
  induction l with
  | nil => rfl
  | cons p ps ih =>
    simp only [List.map_cons, mandatoryKeeps, startsWithV, List.any_cons]
    cases h : startsWith id p <;> simp [ih]

theorem keepMatch_str (dirs : Directives) (mand : List String) (m : Match) :
    ∃ b, keepMatch dirs (mand.map .str) m = .ok b ∧
      (b = true ↔ ¬ Suppressed Touches dirs mand m) := by
  unfold keepMatch Suppressed
  cases h : dlookup (Val.str m.rule.id) dirs with
  | none => exact ⟨true, rfl, by simp⟩
  | some ds =>
    simp only [mandatoryKeeps_str]
    cases h2 : mand.any (startsWith m.rule.id) with
    | true =>
      refine ⟨true, rfl, ?_⟩
      rw [List.any_eq_true] at h2
      obtain ⟨p, hp, hp'⟩ := h2
      simp only [true_iff, not_and, not_not]
      intro _
      exact ⟨p, hp, (startsWith_iff _ _).1 hp'⟩
    | false =>
      refine ⟨_, rfl, ?_⟩
      have hno : ¬ ∃ p ∈ mand, IsPrefix p m.rule.id := by
        rintro ⟨p, hp, hp'⟩
        rw [List.any_eq_false] at h2
        exact h2 p hp ((startsWith_iff _ _).2 hp')
      rw [Bool.not_eq_true', ← Bool.not_eq_true, List.any_eq_true]
      simp only [Option.some.injEq, exists_eq_left', hno, not_false_eq_true, and_true, dirCovers_iff]

/-- The loop invariant of `Runner.run`. -/
theorem runnerFilter_str (dirs : Directives) (mand : List String) :
    ∀ (ms acc : List Match), acc.Pairwise (fun a b => ¬ SameFinding a b) →
    ∃ new, runnerFilter dirs (mand.map .str) ms acc = .ok (acc ++ new) ∧ new.Sublist ms ∧
      (acc ++ new).Pairwise (fun a b => ¬ SameFinding a b) ∧
      (∀ m ∈ new, ¬ Suppressed Touches dirs mand m) ∧
      (∀ m ∈ ms, ¬ Suppressed Touches dirs mand m → ∃ u ∈ acc ++ new, SameFinding m u) := by
  intro ms
  induction ms with
  | nil =>
    intro acc hacc
    exact ⟨[], by simp [runnerFilter], .slnil, by simpa using hacc, by simp, by simp⟩
  | cons m ms ih =>
    intro acc hacc
    unfold runnerFilter
    cases h : acc.any (fun u => m.eqv u) with
    | true =>
      obtain ⟨new, h1, h2, h3, h4, h5⟩ := ih acc hacc
      rw [List.any_eq_true] at h
      obtain ⟨u, hu, hmu⟩ := h
      refine ⟨new, by simpa using h1, h2.cons _, h3, h4, ?_⟩
      intro x hx hsx
      cases hx with
      | head => exact ⟨u, List.mem_append_left _ hu, (eqv_iff _ _).1 hmu⟩
      | tail _ hx => exact h5 x hx hsx
    | false =>
      have hnew : ∀ u ∈ acc, ¬ SameFinding m u := by
        intro u hu hs
        rw [List.any_eq_false] at h
        exact h u hu ((eqv_iff _ _).2 hs)
      obtain ⟨b, hb, hb'⟩ := keepMatch_str dirs mand m
      simp only [Bool.false_eq_true, if_false, hb]
      cases b with
      | true =>
        have hp : (acc ++ [m]).Pairwise (fun a b => ¬ SameFinding a b) := by
          rw [List.pairwise_append]
          refine ⟨hacc, by simp, ?_⟩
          intro a ha b hb
          simp only [List.mem_singleton] at hb
          subst hb
          rintro ⟨e1, e2, e3, e4⟩
          exact hnew a ha ⟨e1.symm, e2.symm, e3.symm, e4.symm⟩
        obtain ⟨new, h1, h2, h3, h4, h5⟩ := ih (acc ++ [m]) hp
        refine ⟨m :: new, by simpa using h1, h2.cons_cons _, by simpa using h3, ?_, ?_⟩
        · intro x hx
          cases hx with
          | head => exact hb'.1 rfl
          | tail _ hx => exact h4 x hx
        · intro x hx hsx
          cases hx with
          | head => exact ⟨m, by simp, rfl, rfl, rfl, rfl⟩
          | tail _ hx =>
            obtain ⟨u, hu, hs⟩ := h5 x hx hsx
            exact ⟨u, by simpa using hu, hs⟩
      | false =>
        obtain ⟨new, h1, h2, h3, h4, h5⟩ := ih acc hacc
        refine ⟨new, by simpa using h1, h2.cons _, h3, h4, ?_⟩
        intro x hx hsx
        cases hx with
        | head => exact absurd (hb'.2 hsx) (by simp)
        | tail _ hx => exact h5 x hx hsx

theorem suppressed_congr {c1 c2 : Dir → Match → Prop} (dirs : Directives) (mand : List String)
    (m : Match)
    (h : ∀ ds, dlookup (Val.str m.rule.id) dirs = some ds → ∀ d ∈ ds, (c1 d m ↔ c2 d m)) :
    Suppressed c1 dirs mand m ↔ Suppressed c2 dirs mand m := by
  unfold Suppressed
  refine and_congr_left (fun _ => ?_)
  constructor
  · rintro ⟨ds, h1, d, h2, h3⟩; exact ⟨ds, h1, d, h2, (h ds h1 d h2).1 h3⟩
  · rintro ⟨ds, h1, d, h2, h3⟩; exact ⟨ds, h1, d, h2, (h ds h1 d h2).2 h3⟩

/-! ### the directive table -/

/-- membership of a directive under an id -/
def DirIn (tbl : Directives) (id : Val) (d : Dir) : Prop := ∃ ds, dlookup id tbl = some ds ∧ d ∈ ds

/-- The directive a resource gives rise to. -/
def dirOf (nl vl : Span) : Dir := ⟨nl.sl + 1, nl.sc + 1, vl.el + 1, vl.ec + 1⟩

theorem addDirectives_ok {name : MKey} {value : MVal} : ∀ {ids : List Val} {acc tbl : Directives},
    addDirectives name value ids acc = .ok tbl → ∀ id d,
    (DirIn tbl id d ↔ DirIn acc id d ∨
      (id ∈ ids ∧ ∃ nl vl, name.loc = .ok nl ∧ value.loc = .ok vl ∧ d = dirOf nl vl)) := by
  intro ids
  induction ids with
  | nil =>
    intro acc tbl h id d
    simp only [addDirectives, Except.ok.injEq] at h; subst h; simp
  | cons x ids ih =>
    intro acc tbl h id d
    unfold addDirectives at h
    split at h
    · cases h
    · cases hv : value.loc with
      | error e => rw [hv] at h; simp at h
      | ok vl =>
        cases hn : name.loc with
        | error e => rw [hv, hn] at h; simp at h
        | ok nl =>
          rw [hv, hn] at h
          simp only at h
          rw [ih h id d]
          simp only [hv, hn, Except.ok.injEq, List.mem_cons]
          unfold DirIn
          rw [dlookup_dset]
          by_cases hx : x = id
          · subst hx
            simp only [if_true, Option.some.injEq, exists_eq_left', List.mem_append,
              List.mem_singleton, true_or, true_and]
            have : (d ∈ (dlookup x acc).getD []) ↔ ∃ ds, dlookup x acc = some ds ∧ d ∈ ds := by
              cases dlookup x acc <;> simp
            rw [this]
            unfold dirOf
            grind
          · have hx' : ¬ id = x := fun e => hx e.symm
            simp [hx, hx']

theorem directivesLoop_ok : ∀ {rs : List (MKey × MVal)} {acc tbl : Directives},
    directivesLoop rs acc = .ok tbl → ∀ id d,
    (DirIn tbl id d ↔ DirIn acc id d ∨
      ∃ kv ∈ rs, ∃ ic ids nl vl, ignoreChecksOf kv.2 = .ok ic ∧ pyIter ic = .ok ids ∧ id ∈ ids ∧
        kv.1.loc = .ok nl ∧ kv.2.loc = .ok vl ∧ d = dirOf nl vl) := by
  intro rs
  induction rs with
  | nil =>
    intro acc tbl h id d
    simp only [directivesLoop, Except.ok.injEq] at h; subst h; simp
  | cons x rs ih =>
    intro acc tbl h id d
    obtain ⟨name, value⟩ := x
    unfold directivesLoop at h
    cases h1 : ignoreChecksOf value with
    | error e => rw [h1] at h; simp at h
    | ok ic =>
      rw [h1] at h; simp only at h
      cases h2 : pyIter ic with
      | error e => rw [h2] at h; simp at h
      | ok ids =>
        rw [h2] at h; simp only at h
        cases h3 : addDirectives name value ids acc with
        | error e => rw [h3] at h; simp at h
        | ok acc' =>
          rw [h3] at h; simp only at h
          rw [ih h id d, addDirectives_ok h3]
          simp only [List.mem_cons, exists_eq_or_imp, h1, Except.ok.injEq, exists_and_left,
            exists_eq_left', h2]
          rw [or_assoc]

end CfnLint
