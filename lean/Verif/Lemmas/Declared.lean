import Verif.Model.PrimType
import Verif.Spec.PrimType
import Verif.Lemmas.CheckOnly
import Verif.Lemmas.Finds
/- Loops over the declared properties of an object. -/
namespace CfnLint
open Spec

theorem noCall_known {u : Val} : NoCall u ↔ Known u := by
  have h1 : ∀ f ∈ functionNames, f ∈ callNames := by decide +kernel
  have h2 : ∀ f ∈ callNames, f ∈ functionNames := by decide +kernel
  constructor
  · intro h f a e hm
    exact h f a (h2 f hm) e
  · intro h f a hm e
    exact h f a e (h1 f hm)

theorem declaredIn_dict {ρ α : Type} {rows : List (String × ρ)} {f : String → ρ → PyM (List α)} {kvs : List (Key × Val)}
    {P : String → ρ → α → Prop}
    (h : ∀ s r v, (Key.str s, v) ∈ kvs → dlookup s rows = some r → ∃ l, f s r = .ok l ∧ ∀ m, m ∈ l ↔ P s r m) :
    ∃ res, declaredIn rows f (.dict kvs) = .ok res ∧
      ∀ m, m ∈ res ↔ ∃ s r v, (Key.str s, v) ∈ kvs ∧ dlookup s rows = some r ∧ P s r m := by
  obtain ⟨res, h1, h2⟩ := collectM_spec (as := kvs.map (fun kv => kv.1.toVal)) (f := fun x : Val =>
      match x with
      | .str s =>
        match dlookup s rows with
        | none => .ok []
        | some r => f s r
      | .list _ => .error (.typeError "unhashable type: 'list_node'")
      | .dict _ => .error (.typeError "unhashable type: 'dict_node'")
      | _ => .ok []) (P := fun x m => ∃ s r, x = .str s ∧ dlookup s rows = some r ∧ P s r m) (by
    intro x hx
    obtain ⟨⟨k, v⟩, hm, rfl⟩ := List.mem_map.1 hx
    cases k with
    | int i => exact ⟨[], rfl, fun m => ⟨fun hm => (by cases hm), fun ⟨s, _, e, _⟩ => (by cases e)⟩⟩
    | str s =>
      cases hl : dlookup s rows with
      | none =>
        refine ⟨[], by simp only [Key.toVal, hl], fun m => ⟨fun hm => (by cases hm), fun ⟨s', r, e, h1, _⟩ => ?_⟩⟩
        cases e
        rw [hl] at h1
        cases h1
      | some r =>
        obtain ⟨l, h1, h2⟩ := h s r v hm hl
        refine ⟨l, by simp only [Key.toVal, hl, h1], fun m => ?_⟩
        rw [h2]
        constructor
        · exact fun hp => ⟨s, r, rfl, hl, hp⟩
        · rintro ⟨s', r', e, h3, hp⟩
          cases e
          rw [hl] at h3
          cases h3
          exact hp)
  refine ⟨res, h1, fun m => ?_⟩
  rw [h2]
  constructor
  · rintro ⟨x, hx, s, r, rfl, hl, hp⟩
    obtain ⟨⟨k, v⟩, hm, e⟩ := List.mem_map.1 hx
    cases k with
    | int i => cases e
    | str s' =>
      cases e
      exact ⟨s, r, v, hm, hl, hp⟩
  · rintro ⟨s, r, v, hm, hl, hp⟩
    exact ⟨.str s, List.mem_map.2 ⟨_, hm, rfl⟩, s, r, rfl, hl, hp⟩

/-- `check_value` with a check that finds the faults `F` of a value -/
theorem checkValue_finds {g : Val → Path → List Path} {F : Val → Path → Prop} {kvs : List (Key × Val)} {key : String} {v : Val} {path : Path}
    (hk : dlookup (Key.str key) kvs = some v) (h0 : v ≠ .none) (hnull : ∀ q, ¬ Leaf v q .none) (n : Nat)
    (hg : ∀ q u, PropValue v q u → Known u → ∀ p m, m ∈ g u p ↔ ∃ r, m = p ++ r ∧ F u r) :
    Finds (checkValue (n + 2) { value := some (fun v p => .ok (g v p)) } (.dict kvs) key path) path
      (fun s => ∃ q u r, PropValue v q u ∧ Known u ∧ F u r ∧ s = .str key :: (q ++ r)) := by
  obtain ⟨res, h1, h2⟩ := checkValue_only (f := fun v p => .ok (g v p)) (path := path) hk h0 hnull n (fun q u _ _ => ⟨_, rfl⟩)
  refine ⟨res, h1, fun m => ?_⟩
  rw [h2]
  constructor
  · rintro ⟨q, u, l, hp, hn, e, hm⟩
    cases e
    have hn' := noCall_known.1 hn
    obtain ⟨r, rfl, hr⟩ := (hg q u hp hn' _ _).1 hm
    exact ⟨.str key :: (q ++ r), by simp, q, u, r, hp, hn', hr, rfl⟩
  · rintro ⟨s, rfl, q, u, r, hp, hn, hr, rfl⟩
    exact ⟨q, u, _, hp, noCall_known.2 hn, rfl, (hg q u hp hn _ _).2 ⟨r, by simp, hr⟩⟩

end CfnLint
