import Verif.Props.CheckValue
/- `check_value` with a check for values only. -/
namespace CfnLint
open Spec

/-- no call of a function -/
def NoCall (u : Val) : Prop := ∀ name arg, name ∈ functionNames → u ≠ .dict [(.str name, arg)]

theorem noCall_text (s : String) : NoCall (.str s) := fun _ _ _ e => by cases e

theorem checkOne_only {α : Type} (f : Val → Path → PyM (List α)) (v : Val) (p : Path) :
    (NoCall v ∧ checkOne { value := some f } v p = f v p) ∨ (¬ NoCall v ∧ checkOne { value := some f } v p = .ok []) := by
  have named : ∀ name, name ∈ functionNames → (Checks.named { value := some f } (checkName name)) = none := by
    have : ∀ name ∈ functionNames, checkName name ≠ "check_value" := by decide +kernel
    intro name h
    unfold Checks.named
    rw [if_neg (this name h)]
    simp
  unfold checkOne
  split
  · rename_i k arg
    cases k with
    | str name =>
      simp only
      by_cases h : name ∈ functionNames
      · rw [if_pos h]
        refine .inr ⟨fun hn => hn name arg h rfl, ?_⟩
        split
        · rfl
        · rw [named name h]; rfl
      · rw [if_neg h]
        refine .inl ⟨fun n a hn e => ?_, rfl⟩
        cases e
        exact h hn
    | int i => exact .inl ⟨fun n a hn e => (by cases e), rfl⟩
  · rename_i h
    exact .inl ⟨fun n a hn e => h _ _ e, rfl⟩

theorem checkLoop_only {α : Type} {f : Val → Path → PyM (List α)} {path : Path} : ∀ {r : List (Path × Val)} {acc : List α},
    (∀ p v, (p, v) ∈ r → NoCall v → ∃ l, f v (path ++ p) = .ok l) →
    ∃ res, checkLoop { value := some f } path r acc = .ok res ∧
      ∀ m, m ∈ res ↔ m ∈ acc ∨ ∃ p v l, (p, v) ∈ r ∧ NoCall v ∧ f v (path ++ p) = .ok l ∧ m ∈ l
  | [], acc, _ => ⟨acc, rfl, fun m => by simp⟩
  | (p, v) :: r, acc, h => by
    rw [checkLoop]
    rcases checkOne_only f v (path ++ p) with ⟨hn, e⟩ | ⟨hn, e⟩
    · obtain ⟨l, hl⟩ := h p v List.mem_cons_self hn
      rw [e, hl]
      obtain ⟨res, hr, hm⟩ := checkLoop_only (r := r) (acc := acc ++ l) (fun p v hm hn => h p v (List.mem_cons_of_mem _ hm) hn)
      refine ⟨res, hr, fun m => ?_⟩
      rw [hm]
      constructor
      · rintro (h1 | ⟨p', v', l', h1, h2⟩)
        · rcases List.mem_append.1 h1 with h1 | h1
          · exact .inl h1
          · exact .inr ⟨p, v, l, List.mem_cons_self, hn, hl, h1⟩
        · exact .inr ⟨p', v', l', List.mem_cons_of_mem _ h1, h2⟩
      · rintro (h1 | ⟨p', v', l', h1, h2, h3, h4⟩)
        · exact .inl (List.mem_append_left _ h1)
        · rcases List.mem_cons.1 h1 with h1 | h1
          · cases h1
            rw [hl] at h3
            cases h3
            exact .inl (List.mem_append_right _ h4)
          · exact .inr ⟨p', v', l', h1, h2, h3, h4⟩
    · rw [e]
      obtain ⟨res, hr, hm⟩ := checkLoop_only (r := r) (acc := acc ++ []) (fun p v hm hn => h p v (List.mem_cons_of_mem _ hm) hn)
      refine ⟨res, hr, fun m => ?_⟩
      rw [hm, List.append_nil]
      constructor
      · rintro (h1 | ⟨p', v', l', h1, h2⟩)
        · exact .inl h1
        · exact .inr ⟨p', v', l', List.mem_cons_of_mem _ h1, h2⟩
      · rintro (h1 | ⟨p', v', l', h1, h2, h3, h4⟩)
        · exact .inl h1
        · rcases List.mem_cons.1 h1 with h1 | h1
          · cases h1
            exact absurd h2 hn
          · exact .inr ⟨p', v', l', h1, h2, h3, h4⟩

/-- the findings are those of the check on the values that are no calls -/
theorem checkValue_only {α : Type} {f : Val → Path → PyM (List α)} {kvs : List (Key × Val)} {key : String} {v : Val} {path : Path}
    (hk : dlookup (Key.str key) kvs = some v) (h0 : v ≠ .none) (hnull : ∀ q, ¬ Leaf v q .none) (n : Nat)
    (hf : ∀ q u, PropValue v q u → NoCall u → ∃ l, f u (path ++ .str key :: q) = .ok l) :
    ∃ res, checkValue (n + 2) { value := some f } (.dict kvs) key path = .ok res ∧
      ∀ m, m ∈ res ↔ ∃ q u l, PropValue v q u ∧ NoCall u ∧ f u (path ++ .str key :: q) = .ok l ∧ m ∈ l := by
  obtain ⟨r, hr, -, hm⟩ := getValues_spec (n := n) (path := []) h0 hnull
  have hm' : ∀ p w, (p, w) ∈ r ↔ PropValue v p w := by
    intro p w
    rw [hm]
    simp
  obtain ⟨res, h1, h2⟩ := checkLoop_only (f := f) (path := path ++ [.str key]) (r := r) (acc := []) (fun p u hm hn => by
    obtain ⟨l, hl⟩ := hf p u ((hm' _ _).1 hm) hn
    exact ⟨l, by rw [List.append_assoc]; exact hl⟩)
  refine ⟨res, ?_, fun m => ?_⟩
  · simp only [checkValue, hk, Option.getD_some, hr]
    exact h1
  · rw [h2]
    simp only [List.not_mem_nil, false_or, hm', List.append_assoc, List.cons_append, List.nil_append]

end CfnLint
