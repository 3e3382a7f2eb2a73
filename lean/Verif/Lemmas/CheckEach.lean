import Verif.Lemmas.Declared
/- `check_value` with any checks, when the result for each value is known. -/
namespace CfnLint
open Spec

theorem checkLoop_each {α : Type} {h : Checks α} {path : Path} {P : Val → Path → α → Prop} :
    ∀ {r : List (Path × Val)} {acc : List α},
    (∀ p v, (p, v) ∈ r → ∃ l, checkOne h v (path ++ p) = .ok l ∧ ∀ m, m ∈ l ↔ P v (path ++ p) m) →
    ∃ res, checkLoop h path r acc = .ok res ∧ ∀ m, m ∈ res ↔ m ∈ acc ∨ ∃ p v, (p, v) ∈ r ∧ P v (path ++ p) m
  | [], acc, _ => ⟨acc, rfl, fun m => by simp⟩
  | (p, v) :: r, acc, hr => by
    obtain ⟨l, h1, h2⟩ := hr p v List.mem_cons_self
    obtain ⟨res, h3, h4⟩ := checkLoop_each (r := r) (acc := acc ++ l) (fun p v hm => hr p v (List.mem_cons_of_mem _ hm))
    rw [checkLoop, h1]
    refine ⟨res, h3, fun m => ?_⟩
    rw [h4, List.mem_append, h2]
    constructor
    · rintro ((h5 | h5) | ⟨p', v', h5, h6⟩)
      · exact .inl h5
      · exact .inr ⟨p, v, List.mem_cons_self, h5⟩
      · exact .inr ⟨p', v', List.mem_cons_of_mem _ h5, h6⟩
    · rintro (h5 | ⟨p', v', h5, h6⟩)
      · exact .inl (.inl h5)
      · rcases List.mem_cons.1 h5 with h5 | h5
        · cases h5
          exact .inl (.inr h6)
        · exact .inr ⟨p', v', h5, h6⟩

theorem checkValue_each {h : Checks Path} {F : Val → Path → Prop} {kvs : List (Key × Val)} {key : String} {v : Val} {path : Path}
    (hk : dlookup (Key.str key) kvs = some v) (h0 : v ≠ .none) (hnull : ∀ q, ¬ Leaf v q .none) (n : Nat)
    (hg : ∀ q u, PropValue v q u → ∀ p, Finds (checkOne h u p) p (F u)) :
    Finds (checkValue (n + 2) h (.dict kvs) key path) path
      (fun s => ∃ q u r, PropValue v q u ∧ F u r ∧ s = .str key :: (q ++ r)) := by
  obtain ⟨r, hr, -, hm⟩ := getValues_spec (n := n) (path := []) h0 hnull
  have hm' : ∀ p w, (p, w) ∈ r ↔ PropValue v p w := by
    intro p w
    rw [hm]
    simp
  obtain ⟨res, h1, h2⟩ := checkLoop_each (h := h) (path := path ++ [.str key]) (r := r) (acc := [])
    (P := fun u p m => ∃ s, m = p ++ s ∧ F u s) (fun p u hp => hg p u ((hm' _ _).1 hp) _)
  refine ⟨res, ?_, fun m => ?_⟩
  · simp only [checkValue, hk, Option.getD_some, hr, h1]
  · rw [h2]
    constructor
    · rintro (h3 | ⟨p, u, h3, s, rfl, h4⟩)
      · cases h3
      · exact ⟨.str key :: (p ++ s), by simp, p, u, s, (hm' _ _).1 h3, h4, rfl⟩
    · rintro ⟨_, rfl, q, u, s, h3, h4, rfl⟩
      exact .inr ⟨q, u, (hm' _ _).2 h3, s, by simp, h4⟩

/-- a value that is no call is given to the check for values -/
theorem checkOne_value {α : Type} (h : Checks α) {v : Val} (hn : NoCall v) (p : Path) : checkOne h v p = callCheck h.value v p := by
  unfold checkOne
  split
  · rename_i k arg
    cases k with
    | str name =>
      simp only
      rw [if_neg (fun hm => hn name arg hm rfl)]
    | int i => rfl
  · rfl

/-- a call of a function is given to the check of its name -/
theorem checkOne_call {α : Type} (h : Checks α) {name : String} (hn : name ∈ functionNames) (arg : Val) (p : Path) :
    checkOne h (.dict [(.str name, arg)]) p = callCheck (h.named (checkName name)) arg (p ++ [.str name]) := by
  unfold checkOne
  simp only
  rw [if_pos hn]
  split
  · rename_i hc
    have : ∀ f ∈ functionNames, checkName f = "check_ref" → f = "Ref" := by decide +kernel
    cases this name hn hc
    rw [hc]
    rfl
  · rfl

/-- the functions for which there is no check, when only values and `Fn::Sub` are checked -/
theorem named_sub {α : Type} {f g : Option (Val → Path → PyM (List α))} {name : String} (hn : name ∈ functionNames) :
    Checks.named { value := f, sub := g } (checkName name) = if name = "Fn::Sub" then g else none := by
  have h1 : ∀ f ∈ functionNames, checkName f ≠ "check_value" := by decide +kernel
  have h2 : ∀ f ∈ functionNames, (checkName f = "check_sub" ↔ f = "Fn::Sub") := by decide +kernel
  unfold Checks.named
  rw [if_neg (h1 name hn)]
  by_cases hs : name = "Fn::Sub"
  · rw [if_pos hs, (h2 name hn).2 hs]
    rfl
  · rw [if_neg hs, if_neg (c := checkName name = "check_sub") (fun e => hs ((h2 name hn).1 e))]
    simp

end CfnLint
