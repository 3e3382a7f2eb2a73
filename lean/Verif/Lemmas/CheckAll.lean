import Verif.Lemmas.CheckEach
import Verif.Lemmas.Declared
namespace CfnLint
open Spec

/-- `check_value` with checks that find what `P` says of each value -/
theorem checkValue_all {α : Type} {h : Checks α} {P : Val → Path → α → Prop} {kvs : List (Key × Val)} {key : String} {v : Val} {path : Path}
    (hk : dlookup (Key.str key) kvs = some v) (h0 : v ≠ .none) (hnull : ∀ q, ¬ Leaf v q .none) (n : Nat)
    (hg : ∀ q u, PropValue v q u → ∀ p, ∃ l, checkOne h u p = .ok l ∧ ∀ m, m ∈ l ↔ P u p m) :
    ∃ res, checkValue (n + 2) h (.dict kvs) key path = .ok res ∧
      ∀ m, m ∈ res ↔ ∃ q u, PropValue v q u ∧ P u (path ++ .str key :: q) m := by
  obtain ⟨r, hr, -, hm⟩ := getValues_spec (n := n) (path := []) h0 hnull
  have hm' : ∀ p w, (p, w) ∈ r ↔ PropValue v p w := by
    intro p w
    rw [hm]
    simp
  obtain ⟨res, h1, h2⟩ := checkLoop_each (h := h) (path := path ++ [.str key]) (r := r) (acc := [])
    (P := P) (fun p u hp => hg p u ((hm' _ _).1 hp) _)
  refine ⟨res, ?_, fun m => ?_⟩
  · simp only [checkValue, hk, Option.getD_some, hr, h1]
  · rw [h2]
    simp only [List.not_mem_nil, false_or, hm', List.append_assoc, List.cons_append, List.nil_append]

/-- the same for a property that may be missing -/
theorem checkValue_given {α : Type} {h : Checks α} {P : Val → Path → α → Prop} {kvs : List (Key × Val)} {key : String} {path : Path}
    (hd : (kvs.map Prod.fst).Nodup) (hnull : ∀ v, (Key.str key, v) ∈ kvs → v ≠ .none ∧ ∀ q, ¬ Leaf v q .none) (n : Nat)
    (hg : ∀ v q u, (Key.str key, v) ∈ kvs → PropValue v q u → ∀ p, ∃ l, checkOne h u p = .ok l ∧ ∀ m, m ∈ l ↔ P u p m) :
    ∃ res, checkValue (n + 2) h (.dict kvs) key path = .ok res ∧
      ∀ m, m ∈ res ↔ ∃ v q u, (Key.str key, v) ∈ kvs ∧ PropValue v q u ∧ P u (path ++ .str key :: q) m := by
  cases hl : dlookup (Key.str key) kvs with
  | none =>
    refine ⟨[], ?_, fun m => ⟨fun hm => (by cases hm), ?_⟩⟩
    · simp only [checkValue, hl, Option.getD_none]
      rfl
    · rintro ⟨v, q, u, hm, -⟩
      rw [dlookup_of_mem hd hm] at hl
      cases hl
  | some v =>
    have hm := dlookup_mem hl
    obtain ⟨res, h1, h2⟩ := checkValue_all (h := h) (P := P) (path := path) hl (hnull v hm).1 (hnull v hm).2 n (fun q u hq => hg v q u hm hq)
    refine ⟨res, h1, fun m => ?_⟩
    rw [h2]
    constructor
    · rintro ⟨q, u, h3, h4⟩
      exact ⟨v, q, u, hm, h3, h4⟩
    · rintro ⟨v', q, u, hm', h3, h4⟩
      have := dlookup_of_mem hd hm'
      rw [hl] at this
      cases this
      exact ⟨q, u, h3, h4⟩

/-- the functions for which there is no check, when only values and references are checked -/
theorem named_ref {α : Type} {f g : Option (Val → Path → PyM (List α))} {name : String} (hn : name ∈ functionNames) :
    Checks.named { value := f, ref := g } (checkName name) = if name = "Ref" then g else none := by
  have h1 : ∀ f ∈ functionNames, checkName f ≠ "check_value" := by decide +kernel
  have h2 : ∀ f ∈ functionNames, (checkName f = "check_ref" ↔ f = "Ref") := by decide +kernel
  unfold Checks.named
  rw [if_neg (h1 name hn)]
  by_cases hs : name = "Ref"
  · rw [if_pos hs, (h2 name hn).2 hs]
    rfl
  · rw [if_neg hs, if_neg (c := checkName name = "check_ref") (fun e => hs ((h2 name hn).1 e))]
    simp

/-- one value, when only values and references are checked -/
theorem checkOne_refs {α : Type} {f g : Val → Path → PyM (List α)} {u : Val} {p : Path} {P Q : α → Prop}
    (hf : Known u → ∃ l, f u p = .ok l ∧ ∀ m, m ∈ l ↔ P m)
    (hg : ∀ x, u = .dict [(.str "Ref", x)] → ∃ l, g x (p ++ [.str "Ref"]) = .ok l ∧ ∀ m, m ∈ l ↔ Q m) :
    ∃ l, checkOne { value := some f, ref := some g } u p = .ok l ∧ ∀ m, m ∈ l ↔ Known u ∧ P m ∨ (∃ x, u = .dict [(.str "Ref", x)]) ∧ Q m := by
  by_cases hn : NoCall u
  · have hk := noCall_known.1 hn
    rw [checkOne_value _ hn]
    obtain ⟨l, h1, h2⟩ := hf hk
    refine ⟨l, h1, fun m => ?_⟩
    rw [h2]
    constructor
    · exact fun h => .inl ⟨hk, h⟩
    · rintro (⟨-, h⟩ | ⟨⟨x, rfl⟩, -⟩)
      · exact h
      · exact absurd rfl (hn "Ref" _ (by decide))
  · have hnk : ¬ Known u := fun hk => hn (noCall_known.2 hk)
    obtain ⟨name, arg, hm, rfl⟩ : ∃ name arg, name ∈ functionNames ∧ u = .dict [(.str name, arg)] := by
      unfold NoCall at hn
      simpa using hn
    rw [checkOne_call _ hm, named_ref hm]
    by_cases hr : name = "Ref"
    · subst hr
      rw [if_pos rfl]
      obtain ⟨l, h1, h2⟩ := hg arg rfl
      refine ⟨l, h1, fun m => ?_⟩
      rw [h2]
      constructor
      · exact fun h => .inr ⟨⟨arg, rfl⟩, h⟩
      · rintro (⟨h, -⟩ | ⟨-, h⟩)
        · exact absurd h hnk
        · exact h
    · rw [if_neg hr]
      refine ⟨[], rfl, fun m => ⟨fun hm => (by cases hm), ?_⟩⟩
      rintro (⟨h, -⟩ | ⟨⟨x, e⟩, -⟩)
      · exact absurd h hnk
      · injection e with e
        simp at e
        exact absurd e.1 hr

/-- one value, when only values are checked -/
theorem checkOne_valueOnly {α : Type} {f : Val → Path → PyM (List α)} {u : Val} {p : Path} {P : α → Prop}
    (hf : Known u → ∃ l, f u p = .ok l ∧ ∀ m, m ∈ l ↔ P m) :
    ∃ l, checkOne { value := some f } u p = .ok l ∧ ∀ m, m ∈ l ↔ Known u ∧ P m := by
  by_cases hn : NoCall u
  · have hk := noCall_known.1 hn
    rw [checkOne_value _ hn]
    obtain ⟨l, h1, h2⟩ := hf hk
    exact ⟨l, h1, fun m => by rw [h2]; exact ⟨fun h => ⟨hk, h⟩, fun h => h.2⟩⟩
  · have hnk : ¬ Known u := fun hk => hn (noCall_known.2 hk)
    obtain ⟨name, arg, hm, rfl⟩ : ∃ name arg, name ∈ functionNames ∧ u = .dict [(.str name, arg)] := by
      unfold NoCall at hn
      simpa using hn
    rw [checkOne_call _ hm, named_ref (g := none) hm, ite_self]
    exact ⟨[], rfl, fun m => ⟨fun hm => (by cases hm), fun h => absurd h.1 hnk⟩⟩

/-- one value, when only references are checked -/
theorem checkOne_refOnly {α : Type} {g : Val → Path → PyM (List α)} {u : Val} {p : Path} {Q : α → Prop}
    (hg : ∀ x, u = .dict [(.str "Ref", x)] → ∃ l, g x (p ++ [.str "Ref"]) = .ok l ∧ ∀ m, m ∈ l ↔ Q m) :
    ∃ l, checkOne { ref := some g } u p = .ok l ∧ ∀ m, m ∈ l ↔ (∃ x, u = .dict [(.str "Ref", x)]) ∧ Q m := by
  by_cases hn : NoCall u
  · rw [checkOne_value _ hn]
    refine ⟨[], rfl, fun m => ⟨fun hm => (by cases hm), ?_⟩⟩
    rintro ⟨⟨x, rfl⟩, -⟩
    exact absurd rfl (hn "Ref" _ (by decide))
  · obtain ⟨name, arg, hm, rfl⟩ : ∃ name arg, name ∈ functionNames ∧ u = .dict [(.str name, arg)] := by
      unfold NoCall at hn
      simpa using hn
    rw [checkOne_call _ hm, named_ref hm]
    by_cases hr : name = "Ref"
    · subst hr
      rw [if_pos rfl]
      obtain ⟨l, h1, h2⟩ := hg arg rfl
      refine ⟨l, h1, fun m => ?_⟩
      rw [h2]
      exact ⟨fun h => ⟨⟨arg, rfl⟩, h⟩, fun h => h.2⟩
    · rw [if_neg hr]
      refine ⟨[], rfl, fun m => ⟨fun hm => (by cases hm), ?_⟩⟩
      rintro ⟨⟨x, e⟩, -⟩
      injection e with e
      simp at e
      exact absurd e.1 hr

end CfnLint
