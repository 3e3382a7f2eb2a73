import Verif.Model.SubNeeded
import Verif.Spec.SubNeeded
import Verif.Lemmas.Finds
import Mathlib.Tactic.Common
/- Properties of the rule on variables outside of `Fn::Sub` (C79). -/
namespace CfnLint
open Spec

/-! ### variables of a text -/

theorem isVarChar_iff {c : Char} : isVarChar c = true ↔ VarChar c := by
  have le : ∀ a b : Char, a ≤ b ↔ a.toNat ≤ b.toNat := fun a b => Iff.rfl
  unfold isVarChar VarChar
  simp only [le, Bool.or_eq_true, Bool.and_eq_true, decide_eq_true_iff, beq_iff_eq]
  simp only [show 'A'.toNat = 65 from rfl, show 'Z'.toNat = 90 from rfl, show 'a'.toNat = 97 from rfl, show 'z'.toNat = 122 from rfl,
    show '0'.toNat = 48 from rfl, show '9'.toNat = 57 from rfl, or_assoc]

theorem varMatch_iff {l body rest : List Char} : varMatch l = some (body, rest) ↔
    l = '$' :: '{' :: (body ++ '}' :: rest) ∧ body ≠ [] ∧ ∀ c ∈ body, isVarChar c = true := by
  constructor
  · intro h
    unfold varMatch at h
    split at h
    · rename_i r
      split at h
      · rename_i c x rest' h1 h2
        cases h
        refine ⟨?_, by simp, ?_⟩
        · rw [← h1, ← h2, List.takeWhile_append_dropWhile]
        · rw [← h1]
          intro c hc
          exact List.mem_takeWhile_imp hc
      · cases h
    · cases h
  · rintro ⟨rfl, hn, hc⟩
    have h1 : (body ++ '}' :: rest).takeWhile isVarChar = body := by
      rw [List.takeWhile_append_of_pos hc, List.takeWhile_cons_of_neg (by decide), List.append_nil]
    have h2 : (body ++ '}' :: rest).dropWhile isVarChar = '}' :: rest := by
      rw [List.dropWhile_append_of_pos hc, List.dropWhile_cons_of_neg (by decide)]
    unfold varMatch
    simp only [h1, h2]
    match body, hn with
    | c :: x, _ => rfl

theorem varScan_iff {x : String} : ∀ (n : Nat) (l : List Char), l.length ≤ n →
    (x ∈ varScan n l ↔ x ≠ "" ∧ (∀ c ∈ x.toList, isVarChar c = true) ∧ ∃ a b, l = a ++ ('$' :: '{' :: (x.toList ++ '}' :: b))) := by
  intro n
  induction n with
  | zero =>
    intro l hl
    have : l = [] := List.length_eq_zero_iff.1 (by omega)
    subst this
    simp [varScan]
  | succ n ih =>
    intro l hl
    match l with
    | [] => simp [varScan]
    | c :: r =>
      rw [List.length_cons] at hl
      cases hm : varMatch (c :: r) with
      | none =>
        simp only [varScan, hm]
        rw [ih r (by omega)]
        refine and_congr_right fun hx => and_congr_right fun hc => ?_
        constructor
        · rintro ⟨a, b, rfl⟩
          exact ⟨c :: a, b, rfl⟩
        · rintro ⟨a, b, h⟩
          match a with
          | [] =>
            rw [List.nil_append] at h
            have := varMatch_iff.2 ⟨h, fun e => hx (String.toList_eq_nil_iff.1 e), hc⟩
            rw [hm] at this
            cases this
          | y :: a =>
            rw [List.cons_append] at h
            cases h
            exact ⟨a, b, rfl⟩
      | some br =>
        obtain ⟨body, rest⟩ := br
        simp only [varScan, hm]
        obtain ⟨he, hb, hc⟩ := varMatch_iff.1 hm
        have hlen : rest.length ≤ n := by
          have := congrArg List.length he
          simp at this
          omega
        rw [List.mem_cons, ih rest hlen]
        constructor
        · rintro (rfl | ⟨h1, h2, a, b, rfl⟩)
          · refine ⟨fun e => hb ?_, ?_, [], rest, ?_⟩
            · have := congrArg String.toList e
              simpa using this
            · simpa using hc
            · simpa using he
          · refine ⟨h1, h2, '$' :: '{' :: (body ++ '}' :: a), b, ?_⟩
            rw [he]
            simp
        · rintro ⟨h1, h2, a, b, h⟩
          match a with
          | [] =>
            rw [List.nil_append] at h
            have := varMatch_iff.2 ⟨h, fun e => h1 (String.toList_eq_nil_iff.1 e), h2⟩
            rw [hm] at this
            cases this
            exact .inl (by simp)
          | y :: a =>
            refine .inr ⟨h1, h2, ?_⟩
            rw [h, List.cons_append] at he
            injection he with _ he
            have hu : '$' ∉ '{' :: (body ++ ['}']) := by
              simp only [List.mem_cons, List.mem_append, List.not_mem_nil, or_false, not_or]
              refine ⟨by decide, fun hd => ?_, by decide⟩
              have := hc _ hd
              exact absurd this (by decide)
            have he' : a ++ '$' :: '{' :: (x.toList ++ '}' :: b) = ('{' :: (body ++ ['}'])) ++ rest := by
              rw [he]; simp
            rcases List.append_eq_append_iff.1 he' with ⟨u, e1, e2⟩ | ⟨u, e1, e2⟩
            · match u with
              | [] => exact ⟨[], b, by simpa using e2.symm⟩
              | z :: u =>
                rw [List.cons_append] at e2
                injection e2 with e2 _
                subst e2
                exact absurd (by rw [e1]; simp) hu
            · exact ⟨u, b, e2⟩

/-- the variables found are those the text contains -/
theorem embedded_iff {s x : String} : x ∈ embedded s ↔ Embeds s x := by
  unfold embedded Embeds
  rw [varScan_iff _ _ (Nat.le_refl _)]
  simp only [isVarChar_iff]

/-! ### texts of a value -/

mutual
theorem varPaths_iff (q : Path) (x : String) : ∀ (v : Val) (p : Path),
    (q, x) ∈ varPaths v p ↔ ∃ r s, q = p ++ r ∧ At v r (.str s) ∧ Embeds s x
  | .dict kvs, p => by
    rw [varPaths, varPathsD_iff q x kvs p]
    constructor
    · rintro ⟨k, v, r, s, hm, rfl, h1, h2⟩
      exact ⟨k :: r, s, rfl, .key hm h1, h2⟩
    · rintro ⟨r, s, rfl, h1, h2⟩
      cases h1 with
      | key hm h1 => exact ⟨_, _, _, s, hm, rfl, h1, h2⟩
  | .list xs, p => by
    rw [varPaths, varPathsL_iff q x xs 0 p]
    constructor
    · rintro ⟨i, v, r, s, hm, rfl, h1, h2⟩
      rw [Nat.zero_add] at *
      exact ⟨_ :: r, s, rfl, .idx hm h1, h2⟩
    · rintro ⟨r, s, rfl, h1, h2⟩
      cases h1 with
      | @idx _ i _ _ _ hm h1 => exact ⟨i, _, _, s, hm, by rw [Nat.zero_add], h1, h2⟩
  | .str s, p => by
    rw [varPaths, List.mem_map]
    constructor
    · rintro ⟨y, hy, e⟩
      cases e
      exact ⟨[], s, by simp, .here, embedded_iff.1 hy⟩
    · rintro ⟨r, s', rfl, h1, h2⟩
      cases h1
      exact ⟨x, embedded_iff.2 h2, by simp⟩
  | .none, p | .bool _, p | .int _, p | .flt _, p => by
    rw [varPaths]
    · constructor
      · intro h; cases h
      · rintro ⟨r, s', rfl, h1, h2⟩
        cases h1
    all_goals (intros; rename_i e; cases e)
theorem varPathsD_iff (q : Path) (x : String) : ∀ (kvs : List (Key × Val)) (p : Path),
    (q, x) ∈ varPathsD kvs p ↔ ∃ k v r s, (k, v) ∈ kvs ∧ q = p ++ k :: r ∧ At v r (.str s) ∧ Embeds s x
  | [], p => by simp [varPathsD]
  | (k, v) :: kvs, p => by
    rw [varPathsD, List.mem_append, varPaths_iff q x v, varPathsD_iff q x kvs]
    constructor
    · rintro (⟨r, s, rfl, h1, h2⟩ | ⟨k', v', r, s, hm, rfl, h1, h2⟩)
      · exact ⟨k, v, r, s, List.mem_cons_self, by simp, h1, h2⟩
      · exact ⟨k', v', r, s, List.mem_cons_of_mem _ hm, rfl, h1, h2⟩
    · rintro ⟨k', v', r, s, hm, rfl, h1, h2⟩
      rcases List.mem_cons.1 hm with e | hm
      · cases e
        exact .inl ⟨r, s, by simp, h1, h2⟩
      · exact .inr ⟨k', v', r, s, hm, rfl, h1, h2⟩
theorem varPathsL_iff (q : Path) (x : String) : ∀ (xs : List Val) (j : Nat) (p : Path),
    (q, x) ∈ varPathsL xs j p ↔ ∃ (i : Nat) (v : Val) (r : Path) (s : String),
      xs[i]? = some v ∧ q = p ++ Key.int ((j + i : Nat) : Int) :: r ∧ At v r (.str s) ∧ Embeds s x
  | [], j, p => by simp [varPathsL]
  | v :: xs, j, p => by
    rw [varPathsL, List.mem_append, varPaths_iff q x v, varPathsL_iff q x xs]
    constructor
    · rintro (⟨r, s, rfl, h1, h2⟩ | ⟨i, v', r, s, hm, rfl, h1, h2⟩)
      · exact ⟨0, v, r, s, rfl, by simp, h1, h2⟩
      · exact ⟨i + 1, v', r, s, hm, by rw [show j + (i + 1) = j + 1 + i by omega], h1, h2⟩
    · rintro ⟨i, v', r, s, hm, rfl, h1, h2⟩
      match i, hm with
      | 0, hm =>
        cases hm
        exact .inl ⟨r, s, by simp, h1, h2⟩
      | i + 1, hm =>
        exact .inr ⟨i, v', r, s, hm, by rw [show j + (i + 1) = j + 1 + i by omega], h1, h2⟩
end

/-! ### definitions of state machines -/

/-- following keys through objects -/
theorem getChain_iff : ∀ (p : Path) (t : Val), t.WF → (∀ c d w, p = c ++ d → d ≠ [] → At t c w → ∃ kvs, w = .dict kvs) →
    ∃ v, getChain t p = .ok v ∧ (v.truthy = true ↔ ∃ w, At t p w ∧ w.truthy = true) := by
  intro p
  induction p with
  | nil =>
    intro t _ _
    refine ⟨t, by cases t <;> rfl, ?_⟩
    constructor
    · intro h; exact ⟨t, .here, h⟩
    · rintro ⟨w, h, h'⟩
      cases h
      exact h'
  | cons k p ih =>
    intro t hw h
    obtain ⟨kvs, rfl⟩ := h [] (k :: p) t rfl (by simp) .here
    rw [getChain]
    have hw' := hw
    rw [Val.WF] at hw'
    cases hl : dlookup k kvs with
    | none =>
      have hno : ∀ w, ¬ At (.dict kvs) (k :: p) w := by
        intro w ha
        cases ha with
        | key hm _ =>
          rw [dlookup_of_mem hw'.1 hm] at hl
          cases hl
      have hempty : ∀ p : Path, getChain (.dict []) p = .ok (.dict []) := by
        intro p
        induction p with
        | nil => rfl
        | cons k p ih => rw [getChain]; exact ih
      refine ⟨.dict [], hempty p, ?_⟩
      constructor
      · intro h; exact absurd h (by decide)
      · rintro ⟨w, h, -⟩
        exact absurd h (hno w)
    | some u =>
      have hm := dlookup_mem hl
      obtain ⟨v, h1, h2⟩ := ih u (at_wf (at_dict_one.2 hm) hw) (fun c d w e hd ha => h (k :: c) d w (by rw [e]; rfl) hd (.key hm ha))
      refine ⟨v, h1, h2.trans ?_⟩
      constructor
      · rintro ⟨w, h3, h4⟩
        exact ⟨w, .key hm h3, h4⟩
      · rintro ⟨w, h3, h4⟩
        cases h3 with
        | key hm' h3 =>
          rw [dlookup_of_mem hw'.1 hm'] at hl
          cases hl
          exact ⟨w, h3, h4⟩

theorem swapDef_same {p : Path} (h : .str "DefinitionString" ∉ p) : swapDef p = p := by
  induction p with
  | nil => rfl
  | cons k p ih =>
    rw [List.mem_cons, not_or] at h
    rw [swapDef, if_neg (fun e => h.1 e.symm), ih h.2]

theorem swapDef_split {a b : Path} (h : .str "DefinitionString" ∉ a) :
    swapDef (a ++ .str "DefinitionString" :: b) = a ++ .str "DefinitionSubstitutions" :: b ∧
    uptoDef (a ++ .str "DefinitionString" :: b) = a ++ [.str "DefinitionSubstitutions"] := by
  induction a with
  | nil => simp [swapDef, uptoDef]
  | cons k a ih =>
    rw [List.mem_cons, not_or] at h
    rw [List.cons_append, swapDef, uptoDef, if_neg (fun e => h.1 e.symm), if_neg (fun e => h.1 e.symm), (ih h.2).1, (ih h.2).2]
    exact ⟨rfl, rfl⟩

theorem shownAt_iff {p q : Path} : ShownAt p q ↔ q = swapDef p := by
  constructor
  · intro h
    cases h with
    | same h => exact (swapDef_same h).symm
    | swapped h => exact (swapDef_split h).1.symm
  · rintro rfl
    by_cases h : .str "DefinitionString" ∈ p
    · obtain ⟨a, b, e, h'⟩ := List.eq_append_cons_of_mem h
      subst e
      rw [(swapDef_split h').1]
      exact .swapped h'
    · rw [swapDef_same h]
      exact .same h

/-! ### the rule -/

theorem foundSub_swap {p : Path} {x : String} : foundSub (swapDef p) x = foundSub p x := by
  induction p with
  | nil => rfl
  | cons k p ih =>
    rw [swapDef]
    by_cases h : k = .str "DefinitionString"
    · rw [if_pos h]
      subst h
      unfold foundSub
      rw [List.any_cons, List.any_cons]
      congr 1
    · rw [if_neg h]
      unfold foundSub at ih ⊢
      rw [List.any_cons, List.any_cons, ih]

theorem foundSub_iff {p : Path} {x : String} : foundSub p x = true ↔
    (∃ k y, k ∈ ["Uri", "Body", "ConnectionId"] ∧ .str k ∈ p ∧ x.toList = "stageVariables.".toList ++ y) ∨ .str "Fn::Sub" ∈ p ∨
      ∃ k, k ∈ freeText ∧ .str k ∈ p := by
  have hapi : ∀ k, isKeyIn (.str k) apiExcludes = true → k ≠ "Fn::Sub" ∧ k ∉ freeText := by
    intro k h
    obtain ⟨f, hf, e⟩ := isKeyIn_iff.1 h
    cases e
    have key : ∀ f ∈ apiExcludes, f ≠ "Fn::Sub" ∧ f ∉ freeText := by decide +kernel
    exact key _ hf
  unfold foundSub
  rw [List.any_eq_true]
  constructor
  · rintro ⟨k, hk, h⟩
    split at h
    · rename_i ha
      obtain ⟨f, hf, rfl⟩ := isKeyIn_iff.1 ha
      obtain ⟨y, hy⟩ := List.isPrefixOf_iff_prefix.1 h
      exact .inl ⟨f, y, hf, hk, hy.symm⟩
    · rw [Bool.or_eq_true, beq_iff_eq, isKeyIn_iff] at h
      rcases h with rfl | ⟨f, hf, rfl⟩
      · exact .inr (.inl hk)
      · exact .inr (.inr ⟨f, hf, hk⟩)
  · rintro (⟨k, y, h1, h2, h3⟩ | h | ⟨k, h1, h2⟩)
    · refine ⟨_, h2, ?_⟩
      rw [if_pos (show isKeyIn (.str k) apiExcludes = true from isKeyIn_iff.2 ⟨k, h1, rfl⟩)]
      exact List.isPrefixOf_iff_prefix.2 ⟨y, h3.symm⟩
    · refine ⟨_, h, ?_⟩
      rw [if_neg (by decide +kernel)]
      rfl
    · refine ⟨_, h2, ?_⟩
      rw [if_neg (fun h => (hapi k h).2 h1), Bool.or_eq_true]
      exact .inr (isKeyIn_iff.2 ⟨k, h1, rfl⟩)

theorem replaced_iff {t : Val} {p : Path} {x : String} : Replaced t p x ↔
    p.head? = some (.str "Parameters") ∨ (((.str "Resource") ∈ p ∨ (.str "NotResource") ∈ p) ∧ x ∈ policyVars) ∨ foundSub p x = true ∨
    ∃ a b w, p = a ++ .str "DefinitionString" :: b ∧ .str "DefinitionString" ∉ a ∧
      At t (a ++ [.str "DefinitionSubstitutions", .str x]) w ∧ w.truthy = true := by
  rw [foundSub_iff]
  constructor
  · intro h
    cases h with
    | parameters h => subst h; exact .inl rfl
    | sub h => exact .inr (.inr (.inl (.inr (.inl h))))
    | free h1 h2 => exact .inr (.inr (.inl (.inr (.inr ⟨_, h1, h2⟩))))
    | policy h1 h2 h3 =>
      refine .inr (.inl ⟨?_, h3⟩)
      simp only [List.mem_cons, List.not_mem_nil, or_false] at h1
      rcases h1 with rfl | rfl
      · exact .inl h2
      · exact .inr h2
    | stage h1 h2 h3 => exact .inr (.inr (.inl (.inl ⟨_, _, h1, h2, h3⟩)))
    | definition h1 h2 h3 h4 => exact .inr (.inr (.inr ⟨_, _, _, h1, h2, h3, h4⟩))
  · rintro (h | ⟨h1 | h1, h2⟩ | (⟨k, y, h1, h2, h3⟩ | h | ⟨k, h1, h2⟩) | ⟨a, b, w, h1, h2, h3, h4⟩)
    · obtain ⟨q, rfl⟩ := List.head?_eq_some_iff.1 h
      exact .parameters rfl
    · exact .policy (k := "Resource") (by simp) h1 h2
    · exact .policy (k := "NotResource") (by simp) h1 h2
    · exact .stage h1 h2 h3
    · exact .sub h
    · exact .free h1 h2
    · exact .definition h1 h2 h3 h4

theorem subNeededOne_spec {custom : String → Bool} {t v : Val} (hw : t.WF) (hp : PlainDefinitions t v) {p : Path} {s x : String}
    (hat : At v p (.str s)) (hx : Embeds s x) :
    ∃ l, subNeededOne custom t (p, x) = .ok l ∧ ∀ q, q ∈ l ↔ ¬ Replaced t p x ∧ custom x = false ∧ ShownAt p q := by
  unfold subNeededOne
  simp only [shownAt_iff]
  by_cases h1 : p.head? = some (.str "Parameters")
  · rw [if_pos h1]
    exact ⟨[], rfl, fun q => ⟨fun h => (by cases h), fun h => absurd (replaced_iff.2 (.inl h1)) h.1⟩⟩
  · rw [if_neg h1]
    by_cases h2 : ((p.contains (.str "Resource") || p.contains (.str "NotResource")) && resourceExcludes.contains x) = true
    · rw [if_pos h2]
      simp only [Bool.and_eq_true, Bool.or_eq_true, List.contains_iff_mem] at h2
      exact ⟨[], rfl, fun q => ⟨fun h => (by cases h), fun h => absurd (replaced_iff.2 (.inr (.inl h2))) h.1⟩⟩
    · rw [if_neg h2]
      simp only [Bool.and_eq_true, Bool.or_eq_true, List.contains_iff_mem] at h2
      by_cases h3 : (p.contains (.str "Condition") && conditionExcludes.contains x) = true
      · rw [if_pos h3]
        simp only [Bool.and_eq_true, List.contains_iff_mem] at h3
        exact ⟨[], rfl, fun q => ⟨fun h => (by cases h), fun h => absurd (.free (k := "Condition") (by decide +kernel) h3.1) h.1⟩⟩
      · rw [if_neg h3, foundSub_swap]
        have rest : (¬ ∃ a b w, p = a ++ .str "DefinitionString" :: b ∧ .str "DefinitionString" ∉ a ∧
            At t (a ++ [.str "DefinitionSubstitutions", .str x]) w ∧ w.truthy = true) →
            ∃ l, (Except.ok (if (custom x || foundSub p x) = true then [] else [swapDef p]) : PyM (List Path)) = .ok l ∧
              ∀ q, q ∈ l ↔ ¬ Replaced t p x ∧ custom x = false ∧ q = swapDef p := by
          intro h4
          by_cases h5 : (custom x || foundSub p x) = true
          · rw [if_pos h5]
            refine ⟨[], rfl, fun q => ⟨fun h => (by cases h), ?_⟩⟩
            rintro ⟨h6, h7, -⟩
            rw [h7, Bool.false_or] at h5
            exact absurd (replaced_iff.2 (.inr (.inr (.inl h5)))) h6
          · rw [if_neg h5]
            refine ⟨_, rfl, fun q => ?_⟩
            rw [Bool.or_eq_true, not_or, Bool.not_eq_true] at h5
            rw [List.mem_singleton, replaced_iff]
            constructor
            · intro h
              refine ⟨?_, h5.1, h⟩
              rintro (h | h | h | h)
              · exact h1 h
              · exact h2 h
              · exact h5.2 h
              · exact h4 h
            · exact fun h => h.2.2
        by_cases h4 : p.contains (.str "DefinitionString") = true
        · rw [if_pos h4]
          obtain ⟨a, b, rfl, ha⟩ := List.eq_append_cons_of_mem (List.contains_iff_mem.1 h4)
          rw [(swapDef_split ha).2, List.append_assoc]
          have uniq : ∀ a' b' : Path, a ++ Key.str "DefinitionString" :: b = a' ++ .str "DefinitionString" :: b' →
              .str "DefinitionString" ∉ a' → a' = a := by
            intro a' b' e ha'
            have h1 := (swapDef_split (b := b) ha).2
            rw [e, (swapDef_split (b := b') ha').2] at h1
            exact List.append_cancel_right h1
          obtain ⟨u, hu, htr⟩ := getChain_iff (a ++ [.str "DefinitionSubstitutions", .str x]) t hw (fun c d w e hd hatc => by
            rcases List.eq_nil_or_concat' d with rfl | ⟨d', y, rfl⟩
            · exact absurd rfl hd
            · refine hp a b s x hat hx ha c d' w ?_ hatc
              rw [← List.append_assoc, show a ++ [Key.str "DefinitionSubstitutions", Key.str x] =
                (a ++ [Key.str "DefinitionSubstitutions"]) ++ [Key.str x] by simp] at e
              exact (List.append_inj' e rfl).1)
          rw [show a ++ ([Key.str "DefinitionSubstitutions"] ++ [Key.str x]) = a ++ [.str "DefinitionSubstitutions", .str x] from rfl, hu]
          simp only
          by_cases h5 : u.truthy = true
          · rw [if_pos h5]
            obtain ⟨w, h6, h7⟩ := htr.1 h5
            exact ⟨[], rfl, fun q => ⟨fun h => (by cases h), fun h => absurd (.definition rfl ha h6 h7) h.1⟩⟩
          · rw [if_neg h5]
            refine rest ?_
            rintro ⟨a', b', w, e, ha', h6, h7⟩
            rw [uniq a' b' e ha'] at h6
            exact h5 (htr.2 ⟨w, h6, h7⟩)
        · rw [if_neg h4]
          refine rest ?_
          rintro ⟨a, b, w, rfl, -⟩
          exact h4 (List.contains_iff_mem.2 (by simp))

/-- (C79) exactly the texts with variables that nothing replaces are reported -/
theorem C79_reports_partial {custom : String → Bool} {t : Val} (hw : t.WF) (ht : ∃ top, t = .dict top) (hp : PlainDefinitions t t)
    (hg : ∀ g, At t [.str "Globals"] g → PlainDefinitions t g) :
    ∃ l, subNeeded custom t = .ok l ∧ ∀ q, q ∈ l ↔
      (∃ p, NeedsSub custom t t p ∧ ShownAt p q) ∨ ∃ g p, At t [.str "Globals"] g ∧ NeedsSub custom t g p ∧ ShownAt p q := by
  obtain ⟨top, rfl⟩ := ht
  have hw' := hw
  rw [Val.WF] at hw'
  have hglob : ∃ g, (Val.dict top).getD "Globals" (.dict []) = .ok g ∧ PlainDefinitions (.dict top) g ∧
      ∀ p s, At g p (.str s) ↔ ∃ g', At (.dict top) [.str "Globals"] g' ∧ At g' p (.str s) := by
    cases hl : dlookup (Key.str "Globals") top with
    | none =>
      have hno : ∀ p s, ¬ At (.dict []) p (.str s) := by
        intro p s h
        cases h with
        | key hm => cases hm
      refine ⟨.dict [], by simp [Val.getD, hl], ?_, fun p s => ⟨fun h => absurd h (hno p s), ?_⟩⟩
      · intro a b s x h
        exact absurd h (hno _ _)
      · rintro ⟨g', h, -⟩
        rw [dlookup_of_mem hw'.1 (at_dict_one.1 h)] at hl
        cases hl
    | some g =>
      have hm : At (.dict top) [.str "Globals"] g := at_dict_one.2 (dlookup_mem hl)
      refine ⟨g, by simp [Val.getD, hl], hg g hm, fun p s => ⟨fun h => ⟨g, hm, h⟩, ?_⟩⟩
      rintro ⟨g', h, h'⟩
      rw [at_det hw hm h]
      exact h'
  obtain ⟨g, hg1, hg2, hg3⟩ := hglob
  unfold subNeeded
  rw [hg1]
  simp only
  obtain ⟨l, hl, hm⟩ := collectM_spec (f := subNeededOne custom (.dict top)) (as := varPaths (.dict top) [] ++ varPaths g [])
    (P := fun f q => ¬ Replaced (.dict top) f.1 f.2 ∧ custom f.2 = false ∧ ShownAt f.1 q) (by
      rintro ⟨p, x⟩ hf
      rcases List.mem_append.1 hf with h | h
      · obtain ⟨r, s, rfl, h1, h2⟩ := (varPaths_iff p x _ _).1 h
        exact subNeededOne_spec hw hp h1 h2
      · obtain ⟨r, s, rfl, h1, h2⟩ := (varPaths_iff p x _ _).1 h
        exact subNeededOne_spec hw hg2 h1 h2)
  refine ⟨l, hl, fun q => ?_⟩
  rw [hm]
  constructor
  · rintro ⟨⟨p, x⟩, hf, h1, h2, h3⟩
    rcases List.mem_append.1 hf with h | h
    · obtain ⟨r, s, rfl, h4, h5⟩ := (varPaths_iff p x _ _).1 h
      exact .inl ⟨_, ⟨s, x, h4, h5, h1, h2⟩, h3⟩
    · obtain ⟨r, s, rfl, h4, h5⟩ := (varPaths_iff p x _ _).1 h
      obtain ⟨g', h6, h7⟩ := (hg3 _ _).1 h4
      exact .inr ⟨g', _, h6, ⟨s, x, h7, h5, h1, h2⟩, h3⟩
  · rintro (⟨p, ⟨s, x, h4, h5, h1, h2⟩, h3⟩ | ⟨g', p, h6, ⟨s, x, h4, h5, h1, h2⟩, h3⟩)
    · exact ⟨(p, x), List.mem_append.2 (.inl ((varPaths_iff p x _ _).2 ⟨p, s, rfl, h4, h5⟩)), h1, h2, h3⟩
    · exact ⟨(p, x), List.mem_append.2 (.inr ((varPaths_iff p x _ _).2 ⟨p, s, rfl, (hg3 _ _).2 ⟨g', h6, h4⟩, h5⟩)), h1, h2, h3⟩

/-- (C79) full statement, which does not hold -/
def C79_statement : Prop := ∀ (custom : String → Bool) (t : Val), t.WF → (∃ top, t = .dict top) →
  ∃ l, subNeeded custom t = .ok l ∧ ∀ q, q ∈ l ↔ NeedsSub custom t t q

/-- (C79) without globals, and with variables of state machines all replaced, the findings are exactly the texts that need `Fn::Sub` -/
theorem C79_exact_partial {custom : String → Bool} {t : Val} (hw : t.WF) (ht : ∃ top, t = .dict top) (hp : PlainDefinitions t t)
    (hg : ∀ g, ¬ At t [.str "Globals"] g) (hd : ∀ p, NeedsSub custom t t p → .str "DefinitionString" ∉ p) :
    ∃ l, subNeeded custom t = .ok l ∧ ∀ q, q ∈ l ↔ NeedsSub custom t t q := by
  obtain ⟨l, h1, h2⟩ := C79_reports_partial (custom := custom) hw ht hp (fun g h => absurd h (hg g))
  refine ⟨l, h1, fun q => ?_⟩
  rw [h2]
  constructor
  · rintro (⟨p, h3, h4⟩ | ⟨g, p, h3, -⟩)
    · cases h4 with
      | same => exact h3
      | swapped => exact absurd (by simp) (hd _ h3)
    · exact absurd h3 (hg g)
  · intro h
    exact .inl ⟨q, h, .same (hd q h)⟩

/-- (C79) the place reported for a state machine is among its substitutions, not where the text is -/
theorem C79_place {custom : String → Bool} {t : Val} (hw : t.WF) (ht : ∃ top, t = .dict top) (hp : PlainDefinitions t t)
    (hg : ∀ g, ¬ At t [.str "Globals"] g) {a b : Path} (ha : .str "DefinitionString" ∉ a)
    (hn : NeedsSub custom t t (a ++ .str "DefinitionString" :: b)) :
    ∃ l, subNeeded custom t = .ok l ∧ a ++ .str "DefinitionSubstitutions" :: b ∈ l := by
  obtain ⟨l, h1, h2⟩ := C79_reports_partial (custom := custom) hw ht hp (fun g h => absurd h (hg g))
  exact ⟨l, h1, (h2 _).2 (.inl ⟨_, hn, .swapped ha⟩)⟩

theorem getChain_raises : ∀ (c d : Path) (t w : Val), t.WF → d ≠ [] → At t c w → (∀ kvs, w ≠ .dict kvs) → ∃ e, getChain t (c ++ d) = .error e := by
  intro c
  induction c with
  | nil =>
    intro d t w _ hd h hn
    cases h
    match d, hd with
    | k :: d, _ =>
      cases t with
      | dict kvs => exact absurd rfl (hn kvs)
      | _ => exact ⟨_, rfl⟩
  | cons k c ih =>
    intro d t w hw hd h hn
    cases t with
    | dict kvs =>
      have hw' := hw
      rw [Val.WF] at hw'
      cases h with
      | key hm h =>
        rw [List.cons_append, getChain, dlookup_of_mem hw'.1 hm, Option.getD_some]
        exact ih d _ w (at_wf (at_dict_one.2 hm) hw) hd h hn
    | _ => exact ⟨_, rfl⟩

/-- (C79) a state machine below a list, or with substitutions that are no object, ends the rule with an error -/
theorem C79_raises {custom : String → Bool} {t : Val} (hw : t.WF) {a b c d : Path} {s x : String} {w : Val}
    (hat : At t (a ++ .str "DefinitionString" :: b) (.str s)) (hx : Embeds s x) (ha : .str "DefinitionString" ∉ a)
    (hc : a ++ [.str "DefinitionSubstitutions"] = c ++ d) (hcw : At t c w) (hn : ∀ kvs, w ≠ .dict kvs)
    (hr : x ∉ policyVars) (hpar : ∀ p, a ≠ .str "Parameters" :: p) (ht : ∃ top, t = .dict top) : ∃ e, subNeeded custom t = .error e := by
  obtain ⟨top, rfl⟩ := ht
  have hhead : (a ++ Key.str "DefinitionString" :: b).head? ≠ some (.str "Parameters") := by
    match a, hpar with
    | [], _ => simp
    | k :: a, hpar =>
      simp only [List.cons_append, List.head?_cons, ne_eq, Option.some.injEq]
      rintro rfl
      exact hpar a rfl
  obtain ⟨e, he⟩ := getChain_raises c (d ++ [.str x]) (.dict top) w hw (by simp) hcw hn
  have hone : subNeededOne custom (.dict top) (a ++ .str "DefinitionString" :: b, x) = .error e := by
    unfold subNeededOne
    simp only
    have hrx : resourceExcludes.contains x = false := by
      rw [← Bool.not_eq_true, List.contains_iff_mem]
      exact hr
    have hcx : conditionExcludes.contains x = false := by
      rw [← Bool.not_eq_true, List.contains_iff_mem]
      intro h
      have key : ∀ y ∈ conditionExcludes, y ∈ policyVars := by decide +kernel
      exact hr (key x h)
    rw [if_neg hhead, hrx, hcx, Bool.and_false, Bool.and_false, if_neg Bool.false_ne_true, if_neg Bool.false_ne_true,
      if_pos (List.contains_iff_mem.2 (by simp)), (swapDef_split ha).2, hc, List.append_assoc, he]
  cases hs : subNeeded custom (.dict top) with
  | error e => exact ⟨e, rfl⟩
  | ok l =>
    unfold subNeeded at hs
    simp only [Val.getD] at hs
    obtain ⟨l', hl'⟩ := collectM_each hs (a ++ .str "DefinitionString" :: b, x)
      (List.mem_append.2 (.inl ((varPaths_iff _ x _ _).2 ⟨_, s, rfl, hat, hx⟩)))
    rw [hone] at hl'
    cases hl'

/-! ### examples -/

/-- a text outside of `Fn::Sub`, one inside, one in a policy and a definition with substitutions -/
def exNeeded : Val := .dict [(.str "Resources", .dict [(.str "R", .dict [(.str "Properties", .dict [
  (.str "Name", .str "x-${AWS::Region}-y"), (.str "Other", .dict [(.str "Fn::Sub", .str "${AWS::Region}")]),
  (.str "Statement", .dict [(.str "Resource", .str "${aws:username}")]),
  (.str "DefinitionString", .str "${A}"), (.str "DefinitionSubstitutions", .dict [(.str "A", .str "b")])])])])]

example : subNeeded (fun _ => false) exNeeded = .ok [[.str "Resources", .str "R", .str "Properties", .str "Name"]] := by decide +kernel

/-- a definition without substitutions -/
def exUndefined : Val := .dict [(.str "DefinitionString", .str "${A}")]

theorem exUndefined_plain : PlainDefinitions exUndefined exUndefined := by
  intro a b s x h _ _ c d w e hc
  unfold exUndefined at h hc
  cases ha : a with
  | nil =>
    rw [ha] at e
    match c, e with
    | [], _ =>
      cases hc
      exact ⟨_, rfl⟩
    | k :: c, e =>
      simp only [List.nil_append, List.cons_append] at e
      injection e with e1 e2
      subst e1
      cases hc with
      | key hm _ => simp at hm
  | cons k a' =>
    rw [ha] at h
    cases h with
    | key hm h =>
      simp only [List.mem_cons, Prod.mk.injEq, List.not_mem_nil, or_false] at hm
      rw [hm.2] at h
      match a', h with
      | [], h => cases h
      | _ :: _, h => cases h

theorem exUndefined_embeds : Embeds "${A}" "A" := ⟨by decide, by
  intro c hc
  simp only [show "A".toList = ['A'] from rfl, List.mem_singleton] at hc
  subst hc
  exact .inl ⟨by decide, by decide⟩, [], [], rfl⟩

example : exUndefined.WF ∧ PlainDefinitions exUndefined exUndefined ∧ ∀ g, ¬ At exUndefined [.str "Globals"] g :=
  ⟨by simp [exUndefined, Val.WF, Val.WFDict], exUndefined_plain, fun g h => by
    unfold exUndefined at h
    simp [at_dict_one] at h⟩

/-- the hypotheses of `C79_raises` are met by a state machine in a branch of a condition -/
example : ∃ t : Val, t.WF ∧ At t ([.str "Fn::If", .int 1] ++ .str "DefinitionString" :: []) (.str "${A}") ∧
    At t [.str "Fn::If"] (.list [.str "c", .dict [(.str "DefinitionString", .str "${A}")]]) :=
  ⟨.dict [(.str "Fn::If", .list [.str "c", .dict [(.str "DefinitionString", .str "${A}")]])], by simp [Val.WF, Val.WFDict, Val.WFList],
    .key List.mem_cons_self (.idx (i := 1) rfl (.key List.mem_cons_self .here)), .key List.mem_cons_self .here⟩

theorem C79_violated : ¬ C79_statement := by
  intro h
  obtain ⟨l, h1, h2⟩ := h (fun _ => false) exUndefined (by simp [exUndefined, Val.WF, Val.WFDict]) ⟨_, rfl⟩
  have e : subNeeded (fun _ => false) exUndefined = .ok [[.str "DefinitionSubstitutions"]] := by decide +kernel
  rw [e] at h1
  cases h1
  obtain ⟨s, x, hat, -⟩ := (h2 [.str "DefinitionSubstitutions"]).1 List.mem_cons_self
  unfold exUndefined at hat
  simp [at_dict_one] at hat

/-- (C79) what stands in the globals is also reported at a place outside of them -/
theorem C79_globals_twice {custom : String → Bool} {t g : Val} (hw : t.WF) (ht : ∃ top, t = .dict top) (hp : PlainDefinitions t t)
    (hg : ∀ g, At t [.str "Globals"] g → PlainDefinitions t g) (hat : At t [.str "Globals"] g) {p : Path}
    (hn : NeedsSub custom t g p) (hd : .str "DefinitionString" ∉ p) : ∃ l, subNeeded custom t = .ok l ∧ p ∈ l := by
  obtain ⟨l, h1, h2⟩ := C79_reports_partial (custom := custom) hw ht hp hg
  exact ⟨l, h1, (h2 p).2 (.inr ⟨g, p, hat, hn, .same hd⟩)⟩

end CfnLint
