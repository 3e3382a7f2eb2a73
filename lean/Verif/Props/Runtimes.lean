import Verif.Spec.Runtimes
import Verif.Lemmas.CheckAll
import Verif.Lemmas.Finds
import Verif.Lemmas.Config
/-
C109: the runtimes of functions.
-/
namespace CfnLint
open Spec

/-- the table has a runtime of the name -/
theorem runtimeCheck_spec {rows : List (String × Lifecycle)} (hr : (rows.map Prod.fst).Nodup) {test : Lifecycle → Bool} {T : Lifecycle → Prop}
    (ht : ∀ r, test r = true ↔ T r) {v : Val} (hv : NotNested v) (p : Path) :
    ∃ l, runtimeCheck rows test v p = .ok l ∧ ∀ m, m ∈ l ↔ NamesRuntime rows T v ∧ m = p := by
  have none : (∀ s, v ≠ .str s) → ∀ m : Path, m ∈ ([] : List Path) ↔ NamesRuntime rows T v ∧ m = p := by
    intro h m
    simp only [List.not_mem_nil, false_iff, not_and]
    rintro ⟨s, r, e, -⟩
    exact absurd e (h s)
  unfold runtimeCheck
  cases v with
  | list xs => exact absurd rfl (hv.1 xs)
  | dict xs => exact absurd rfl (hv.2 xs)
  | none => exact ⟨[], rfl, none (fun _ e => by cases e)⟩
  | bool b => exact ⟨[], rfl, none (fun _ e => by cases e)⟩
  | int b => exact ⟨[], rfl, none (fun _ e => by cases e)⟩
  | flt b => exact ⟨[], rfl, none (fun _ e => by cases e)⟩
  | str s =>
    simp only
    cases hl : dlookup s rows with
    | none =>
      refine ⟨[], rfl, fun m => ?_⟩
      simp only [List.not_mem_nil, false_iff, not_and]
      rintro ⟨s', r, e, h1, -⟩
      cases e
      rw [dlookup_of_mem hr h1] at hl
      cases hl
    | some r =>
      refine ⟨_, rfl, fun m => ?_⟩
      have h1 : NamesRuntime rows T (.str s) ↔ test r = true := by
        rw [ht]
        constructor
        · rintro ⟨s', r', e, h1, h2⟩
          cases e
          rw [dlookup_of_mem hr h1] at hl
          cases hl
          exact h2
        · exact fun h => ⟨s, r, rfl, dlookup_mem hl, h⟩
      rw [h1]
      cases test r <;> simp

theorem runtimeRef_spec {rows : List (String × Lifecycle)} (hr : (rows.map Prod.fst).Nodup) (he : ∀ r, ("", r) ∉ rows) {test : Lifecycle → Bool} {T : Lifecycle → Prop}
    (ht : ∀ r, test r = true ↔ T r) {params : List (Key × Val)} (hp : PlainParams params) (s : String) (p q : Path) :
    ∃ l, runtimeRef rows test params (.str s) q = .ok l ∧ ∀ m, m ∈ l ↔ RuntimePlace rows T params (.dict [(.str "Ref", .str s)]) p m := by
  obtain ⟨hw, hpar⟩ := hp
  simp only [Val.WF] at hw
  have hval : ¬ NamesRuntime rows T (.dict [(.str "Ref", .str s)]) := by
    rintro ⟨_, _, e, -⟩
    cases e
  unfold runtimeRef
  simp only [toKey]
  cases hl : dlookup (Key.str s) params with
  | none =>
    refine ⟨[], rfl, fun m => ⟨fun hm => (by cases hm), fun h => ?_⟩⟩
    generalize hu : Val.dict [(.str "Ref", .str s)] = u at h hval
    cases h with
    | value h => exact absurd h hval
    | default h =>
      cases hu
      rw [dlookup_of_mem hw.1 h] at hl
      cases hl
    | allowed h =>
      cases hu
      rw [dlookup_of_mem hw.1 h] at hl
      cases hl
  | some par =>
    have hm := dlookup_mem hl
    obtain ⟨kvs, rfl, hd, ha⟩ := hpar _ _ hm
    have hwk := wfDict_mem hw.2 _ hm
    simp only [Val.WF] at hwk
    have hsame : ∀ {kvs'}, (Key.str s, Val.dict kvs') ∈ params → kvs' = kvs := by
      intro kvs' h
      have := dlookup_of_mem hw.1 h
      rw [hl] at this
      cases this
      rfl
    simp only [Val.getD]
    obtain ⟨l, h1, h2⟩ : ∃ l, runtimeCheck rows test ((dlookup (Key.str "Default") kvs).getD (.str "")) [.str "Parameters", .str s, .str "Default"] = .ok l ∧
        ∀ m, m ∈ l ↔ NamesRuntime rows T ((dlookup (Key.str "Default") kvs).getD (.str "")) ∧ m = [.str "Parameters", .str s, .str "Default"] := by
      refine runtimeCheck_spec hr ht ?_ _
      cases hd' : dlookup (Key.str "Default") kvs with
      | none => exact ⟨fun _ e => (by cases e), fun _ e => (by cases e)⟩
      | some d => exact hd d (dlookup_mem hd')
    have hdef : NamesRuntime rows T ((dlookup (Key.str "Default") kvs).getD (.str "")) ↔ ∃ d, (Key.str "Default", d) ∈ kvs ∧ NamesRuntime rows T d := by
      cases hd' : dlookup (Key.str "Default") kvs with
      | none =>
        constructor
        · rintro ⟨s', r, e, h, -⟩
          cases e
          exact absurd h (he r)
        · rintro ⟨d, h, -⟩
          rw [dlookup_of_mem hwk.1 h] at hd'
          cases hd'
      | some d =>
        constructor
        · exact fun h => ⟨d, dlookup_mem hd', h⟩
        · rintro ⟨d', h, h'⟩
          rw [dlookup_of_mem hwk.1 h] at hd'
          cases hd'
          exact h'
    obtain ⟨l', h3, h4⟩ : ∃ l', runtimeAllowed rows test (.str s) ((dlookup (Key.str "AllowedValues") kvs).getD .none) = .ok l' ∧
        ∀ m, m ∈ l' ↔ ∃ (xs : List Val) (i : Nat) (x : Val), (Key.str "AllowedValues", .list xs) ∈ kvs ∧ xs[i]? = some x ∧ NamesRuntime rows T x ∧
          m = [.str "Parameters", .str s, .str "AllowedValues", .int i] := by
      have none : (∀ xs, (Key.str "AllowedValues", .list xs) ∉ kvs) → ∀ m, m ∈ ([] : List Path) ↔
          ∃ (xs : List Val) (i : Nat) (x : Val), (Key.str "AllowedValues", .list xs) ∈ kvs ∧ xs[i]? = some x ∧ NamesRuntime rows T x ∧
          m = [.str "Parameters", .str s, .str "AllowedValues", .int i] := by
        intro h m
        refine ⟨fun hm => (by cases hm), ?_⟩
        rintro ⟨xs, _, _, h', -⟩
        exact absurd h' (h xs)
      unfold runtimeAllowed
      split
      · rename_i xs hxs
        have hmem : (Key.str "AllowedValues", .list xs) ∈ kvs := by
          cases hd' : dlookup (Key.str "AllowedValues") kvs with
          | none =>
            rw [hd'] at hxs
            cases hxs
          | some d =>
            rw [hd'] at hxs
            cases hxs
            exact dlookup_mem hd'
        obtain ⟨l', h5, h6⟩ := collectM_spec (f := fun xi : Val × Nat => runtimeCheck rows test xi.1 [.str "Parameters", .str s, .str "AllowedValues", .int xi.2])
          (as := xs.zipIdx) (P := fun xi m => NamesRuntime rows T xi.1 ∧ m = [.str "Parameters", .str s, .str "AllowedValues", .int xi.2]) (by
            rintro ⟨x, i⟩ hx
            exact runtimeCheck_spec hr ht (ha xs x hmem (List.mem_of_getElem? (List.mk_mem_zipIdx_iff_getElem?.1 hx))) _)
        refine ⟨l', h5, fun m => ?_⟩
        rw [h6]
        constructor
        · rintro ⟨⟨x, i⟩, h7, h8, rfl⟩
          exact ⟨xs, i, x, hmem, List.mk_mem_zipIdx_iff_getElem?.1 h7, h8, rfl⟩
        · rintro ⟨xs', i, x, h7, h8, h9, rfl⟩
          have := dlookup_of_mem hwk.1 h7
          rw [dlookup_of_mem hwk.1 hmem] at this
          cases this
          exact ⟨(x, i), List.mk_mem_zipIdx_iff_getElem?.2 h8, h9, rfl⟩
      · rename_i hxs
        refine ⟨[], rfl, none (fun xs h => ?_)⟩
        rw [dlookup_of_mem hwk.1 h] at hxs
        exact hxs xs rfl
    refine ⟨_, by simp only [h1, h3]; rfl, fun m => ?_⟩
    rw [List.mem_append, h2, h4, hdef]
    constructor
    · rintro (⟨⟨d, h5, h6⟩, rfl⟩ | ⟨xs, i, x, h5, h6, h7, rfl⟩)
      · exact .default hm h5 h6
      · exact .allowed hm h5 h6 h7
    · intro h
      generalize hu : Val.dict [(.str "Ref", .str s)] = u at h hval
      cases h with
      | value h => exact absurd h hval
      | default h5 h6 h7 =>
        cases hu
        cases hsame h5
        exact .inl ⟨⟨_, h6, h7⟩, rfl⟩
      | allowed h5 h6 h7 h8 =>
        cases hu
        cases hsame h5
        exact .inr ⟨_, _, _, h6, h7, h8, rfl⟩

/-- what is found for a test of runtimes -/
theorem runtimeRule_spec {rows : List (String × Lifecycle)} (hr : (rows.map Prod.fst).Nodup) (he : ∀ r, ("", r) ∉ rows) {test : Lifecycle → Bool}
    {T : Lifecycle → Prop} (ht : ∀ r, test r = true ↔ T r) {params : List (Key × Val)} (hp : PlainParams params) {kvs : List (Key × Val)}
    (hd : (kvs.map Prod.fst).Nodup) (hnull : ∀ v, (Key.str "Runtime", v) ∈ kvs → v ≠ .none ∧ ∀ q, ¬ Leaf v q .none)
    (hv : ∀ v q u, (Key.str "Runtime", v) ∈ kvs → PropValue v q u → (Known u → NotNested u) ∧ ∀ x, u = .dict [(.str "Ref", x)] → ∃ s, x = .str s)
    (n : Nat) (path : Path) :
    ∃ res, runtimeRule rows test params (n + 2) (.dict kvs) path = .ok res ∧
      ∀ m, m ∈ res ↔ ∃ v q u, (Key.str "Runtime", v) ∈ kvs ∧ PropValue v q u ∧ RuntimePlace rows T params u (path ++ .str "Runtime" :: q) m := by
  refine checkValue_given (P := fun u p m => RuntimePlace rows T params u p m) hd hnull n (fun v q u h1 h2 p => ?_)
  obtain ⟨h3, h4⟩ := hv v q u h1 h2
  obtain ⟨l, h5, h6⟩ := checkOne_refs (f := runtimeCheck rows test) (g := runtimeRef rows test params) (u := u) (p := p)
    (P := fun m => NamesRuntime rows T u ∧ m = p) (Q := fun m => RuntimePlace rows T params u p m)
    (fun hk => runtimeCheck_spec hr ht (h3 hk) p)
    (fun x e => by
      obtain ⟨s, rfl⟩ := h4 x e
      subst e
      exact runtimeRef_spec hr he ht hp s p _)
  refine ⟨l, h5, fun m => ?_⟩
  rw [h6]
  constructor
  · rintro (⟨-, h, rfl⟩ | ⟨-, h⟩)
    · exact .value h
    · exact h
  · intro h
    cases h with
    | value h =>
      refine .inl ⟨?_, h, rfl⟩
      obtain ⟨s, r, rfl, -⟩ := h
      intro f a e
      cases e
    | default h7 h8 h9 => exact .inr ⟨⟨_, rfl⟩, .default h7 h8 h9⟩
    | allowed h7 h8 h9 h10 => exact .inr ⟨⟨_, rfl⟩, .allowed h7 h8 h9 h10⟩

theorem runtimeEnded_iff {now : Int} (r : Lifecycle) : runtimeEnded now r = true ↔ RuntimeOver now r := by
  unfold runtimeEnded RuntimeOver
  simp

theorem runtimeEol_iff {now : Int} (r : Lifecycle) : runtimeEol now r = true ↔ RuntimeAged now r := by
  unfold runtimeEol RuntimeAged
  simp

/-- C109: E2531 reports exactly the runtimes that cannot be used any more: of all values that conditions can choose and, where they refer to parameters, of the
defaults and the allowed values of these. -/
theorem C109_over {rows : List (String × Lifecycle)} (hr : (rows.map Prod.fst).Nodup) (he : ∀ r, ("", r) ∉ rows) (now : Int)
    {params : List (Key × Val)} (hp : PlainParams params) {kvs : List (Key × Val)}
    (hd : (kvs.map Prod.fst).Nodup) (hnull : ∀ v, (Key.str "Runtime", v) ∈ kvs → v ≠ .none ∧ ∀ q, ¬ Leaf v q .none)
    (hv : ∀ v q u, (Key.str "Runtime", v) ∈ kvs → PropValue v q u → (Known u → NotNested u) ∧ ∀ x, u = .dict [(.str "Ref", x)] → ∃ s, x = .str s)
    (n : Nat) (path : Path) :
    ∃ res, runtimeRule rows (runtimeEnded now) params (n + 2) (.dict kvs) path = .ok res ∧
      ∀ m, m ∈ res ↔ ∃ v q u, (Key.str "Runtime", v) ∈ kvs ∧ PropValue v q u ∧ RuntimePlace rows (RuntimeOver now) params u (path ++ .str "Runtime" :: q) m :=
  runtimeRule_spec hr he runtimeEnded_iff hp hd hnull hv n path

/-- C109: W2531 reports exactly the runtimes that are not supported any more but can still be used. -/
theorem C109_aged {rows : List (String × Lifecycle)} (hr : (rows.map Prod.fst).Nodup) (he : ∀ r, ("", r) ∉ rows) (now : Int)
    {params : List (Key × Val)} (hp : PlainParams params) {kvs : List (Key × Val)}
    (hd : (kvs.map Prod.fst).Nodup) (hnull : ∀ v, (Key.str "Runtime", v) ∈ kvs → v ≠ .none ∧ ∀ q, ¬ Leaf v q .none)
    (hv : ∀ v q u, (Key.str "Runtime", v) ∈ kvs → PropValue v q u → (Known u → NotNested u) ∧ ∀ x, u = .dict [(.str "Ref", x)] → ∃ s, x = .str s)
    (n : Nat) (path : Path) :
    ∃ res, runtimeRule rows (runtimeEol now) params (n + 2) (.dict kvs) path = .ok res ∧
      ∀ m, m ∈ res ↔ ∃ v q u, (Key.str "Runtime", v) ∈ kvs ∧ PropValue v q u ∧ RuntimePlace rows (RuntimeAged now) params u (path ++ .str "Runtime" :: q) m :=
  runtimeRule_spec hr he runtimeEol_iff hp hd hnull hv n path

/-- C109: of a runtime that is not supported any more one of the rules speaks and not both, except at the very time of its end. -/
theorem C109_one_of_both {now : Int} {r : Lifecycle} (h : r.eol < now) :
    (runtimeEnded now r = true ∧ runtimeEol now r = false ∨ runtimeEnded now r = false ∧ runtimeEol now r = true) ↔ r.deprecated ≠ now := by
  unfold runtimeEnded runtimeEol
  simp only [h, decide_true, Bool.true_and, decide_eq_true_eq, decide_eq_false_iff_not]
  omega

/-- C109: a runtime never comes back: what E2531 says of it at a time it says at all later times, and W2531 does not speak of it then. -/
theorem C109_later {now later : Int} (hl : now ≤ later) {r : Lifecycle} (h : runtimeEnded now r = true) :
    runtimeEnded later r = true ∧ runtimeEol later r = false := by
  unfold runtimeEnded runtimeEol at *
  simp only [decide_eq_true_eq, Bool.and_eq_false_iff, decide_eq_false_iff_not] at *
  omega

/-- C109: a runtime that is an object with several keys makes the rules raise. -/
theorem C109_object_raises (rows : List (String × Lifecycle)) (test : Lifecycle → Bool) (kvs : List (Key × Val)) (p : Path) :
    ∃ e, runtimeCheck rows test (.dict kvs) p = .error e := ⟨_, rfl⟩

/-- C109: a parameter that is null makes the rules raise, once it is referred to. -/
theorem C109_null_parameter_raises (rows : List (String × Lifecycle)) (test : Lifecycle → Bool) {params : List (Key × Val)} {s : String}
    (h : dlookup (Key.str s) params = some .none) (p : Path) : ∃ e, runtimeRef rows test params (.str s) p = .error e := by
  unfold runtimeRef
  simp only [toKey, h]
  exact ⟨_, rfl⟩

/-- the hypotheses can be met, and a default and an allowed value are found -/
example : runtimeRule [("old", ⟨1, 2⟩), ("new", ⟨3, 9⟩)] (runtimeEnded 5)
    [(.str "P", .dict [(.str "Default", .str "old"), (.str "AllowedValues", .list [.str "new", .str "old"])])] 2
    (.dict [(.str "Runtime", .dict [(.str "Ref", .str "P")])]) [] =
    .ok [[.str "Parameters", .str "P", .str "Default"], [.str "Parameters", .str "P", .str "AllowedValues", .int 1]] := by decide +kernel

example : PlainParams [(.str "P", .dict [(.str "Default", .str "old"), (.str "AllowedValues", .list [.str "new", .str "old"])])] := by
  refine ⟨by simp [Val.WF, Val.WFDict, Val.WFList], ?_⟩
  intro k par h
  simp only [List.mem_singleton, Prod.mk.injEq] at h
  obtain ⟨-, rfl⟩ := h
  refine ⟨_, rfl, ?_, ?_⟩
  · intro d h
    simp at h
    subst h
    exact ⟨fun _ e => (by cases e), fun _ e => (by cases e)⟩
  · intro xs x h hx
    simp at h
    subst h
    simp at hx
    rcases hx with rfl | rfl <;> exact ⟨fun _ e => (by cases e), fun _ e => (by cases e)⟩

end CfnLint
