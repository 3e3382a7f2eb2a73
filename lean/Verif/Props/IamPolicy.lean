import Verif.Spec.IamPolicy
import Verif.Lemmas.CheckOnly
import Verif.Props.Traverse
import Verif.Lemmas.PathConds
import Verif.Lemmas.Finds
/-
C92: policy documents.
-/
namespace CfnLint
open Spec

theorem mem_withoutNoValue {kvs : List (Key × Val)} {k : Key} {v : Val} : (k, v) ∈ kvs.filter (fun kv => decide (kv.2 ≠ noValue)) ↔ Kept kvs k v := by
  rw [List.mem_filter, decide_eq_true_eq]
  rfl

theorem kept_lookup {kvs : List (Key × Val)} (hw : (kvs.map Prod.fst).Nodup) {k : Key} {v : Val} :
    dlookup k (kvs.filter (fun kv => decide (kv.2 ≠ noValue))) = some v ↔ Kept kvs k v := by
  constructor
  · intro h
    exact mem_withoutNoValue.1 (dlookup_mem h)
  · intro h
    exact dlookup_of_mem (hw.sublist (List.filter_sublist.map _)) (mem_withoutNoValue.2 h)

theorem hasKey_iff {kvs : List (Key × Val)} (hw : (kvs.map Prod.fst).Nodup) {k : String} :
    hasKey (kvs.filter (fun kv => decide (kv.2 ≠ noValue))) k = true ↔ ¬ Without kvs [k] := by
  unfold hasKey
  rw [Option.isSome_iff_exists]
  constructor
  · rintro ⟨v, h⟩ hn
    exact hn k (by simp) v ((kept_lookup hw).1 h)
  · intro h
    by_contra hc
    refine h (fun s hs v hv => hc ?_)
    cases List.mem_singleton.1 hs
    exact ⟨v, (kept_lookup hw).2 hv⟩

theorem without_cons {kvs : List (Key × Val)} {a b : String} : Without kvs [a, b] ↔ Without kvs [a] ∧ Without kvs [b] := by
  simp [Without]

theorem hasKey_two {kvs : List (Key × Val)} (hw : (kvs.map Prod.fst).Nodup) {a b : String} :
    (hasKey (kvs.filter (fun kv => decide (kv.2 ≠ noValue))) a || hasKey (kvs.filter (fun kv => decide (kv.2 ≠ noValue))) b) = true ↔
      ¬ Without kvs [a, b] := by
  rw [Bool.or_eq_true, hasKey_iff hw, hasKey_iff hw, without_cons, not_and_or]

theorem statementKeys_iff (k : Key) : k ∈ statementKeys ↔ ∃ s ∈ statementNames, k = .str s := by
  simp [statementKeys, statementNames]
  tauto

/-- the values of an entry -/
theorem getSafe_leaves {kvs : List (Key × Val)} {key : Key} {v : Val} (hvw : v.WF) (hk : dlookup key kvs = some v) (hv : v ≠ noValue) :
    ∃ l, getSafe kvs key .none [] [] = .ok l ∧ ∀ s p, (Val.str s, p) ∈ l ↔ ∃ r, Leaf v r (.str s) ∧ p = key :: r := by
  have atom : (∀ es, v ≠ .dict es) → ∀ s p, (Val.str s, p) = (v, [key]) ↔ ∃ r, Leaf v r (.str s) ∧ p = key :: r := by
    intro hd s p
    have hn : ¬ IsIf v := by rintro ⟨x, rfl⟩; exact hd _ rfl
    constructor
    · intro e
      simp only [Prod.mk.injEq] at e
      obtain ⟨rfl, rfl⟩ := e
      exact ⟨[], .here hn hv, rfl⟩
    · rintro ⟨r, h, rfl⟩
      cases h with
      | here => rfl
      | left => exact absurd rfl (hd _)
      | right => exact absurd rfl (hd _)
  unfold getSafe
  rw [hk, Option.getD_some]
  simp only [and_true, List.isEmpty_nil, Bool.not_true, Bool.false_and, Bool.false_eq_true, if_false]
  by_cases h0 : v = .none
  · rw [if_pos h0]
    refine ⟨[], rfl, fun s p => ?_⟩
    subst h0
    rw [← atom (by simp)]
    simp
  · rw [if_neg h0]
    cases v with
    | dict es =>
      refine ⟨_, rfl, fun s p => ?_⟩
      rw [List.mem_filter, mem_itemsSafe [] es _ _ _ hvw]
      constructor
      · rintro ⟨⟨q, u, h1, rfl, h2, -⟩, -⟩
        cases u <;> simp [withoutNoValue] at h2
        subst h2
        exact ⟨q, h1, rfl⟩
      · rintro ⟨r, h1, rfl⟩
        exact ⟨⟨r, _, h1, rfl, rfl, rfl⟩, rfl⟩
    | _ =>
      refine ⟨_, rfl, fun s p => ?_⟩
      rw [← atom (by simp)]
      simp [okType]

theorem mem_effectFaults {branch : Path} {vals : List (Val × Path)} {f : IamFault} {p : Path} :
    (f, p) ∈ effectFaults branch vals ↔ f = .effect ∧ ∃ s r, (Val.str s, r) ∈ vals ∧ s ≠ "Allow" ∧ s ≠ "Deny" ∧ p = branch ++ r := by
  unfold effectFaults
  rw [List.mem_flatMap]
  constructor
  · rintro ⟨⟨v, r⟩, h1, h2⟩
    cases v with
    | str s =>
      simp only at h2
      split at h2
      · cases h2
      · rename_i hs
        cases List.mem_singleton.1 h2
        exact ⟨rfl, s, r, h1, fun h => hs (.inl h), fun h => hs (.inr h), rfl⟩
    | _ => cases h2
  · rintro ⟨rfl, s, r, h1, h2, h3, rfl⟩
    refine ⟨_, h1, ?_⟩
    simp only
    rw [if_neg (not_or.2 ⟨h2, h3⟩)]
    simp

theorem mem_ite_nil {α : Type} {b : Prop} [Decidable b] {x y : α} : x ∈ (if b then [] else [y]) ↔ ¬ b ∧ x = y := by
  by_cases h : b <;> simp [h]

theorem mem_ite_one {α : Type} {b : Prop} [Decidable b] {x y : α} : x ∈ (if b then [y] else []) ↔ b ∧ x = y := by
  by_cases h : b <;> simp [h]

/-- the findings for a statement are its faults -/
theorem policyStatement_spec {st : List (Key × Val)} (hw : (Val.dict st).WF) (identity exception : Bool) (branch : Path) :
    ∃ l, policyStatement identity exception (withoutNoValue (.dict st)) branch = .ok l ∧
      ∀ f p, (f, p) ∈ l ↔ ∃ r, StatementFault identity exception st f r ∧ p = branch ++ r := by
  have hnd : (st.map Prod.fst).Nodup := by rw [Val.WF] at hw; exact hw.1
  have eff : ∃ l, getSafe (st.filter (fun kv => decide (kv.2 ≠ noValue))) (.str "Effect") .none [] [] = .ok l ∧
      ∀ s p, (Val.str s, p) ∈ l ↔ ∃ v r, Kept st (.str "Effect") v ∧ Leaf v r (.str s) ∧ p = .str "Effect" :: r := by
    cases h : dlookup (Key.str "Effect") (st.filter (fun kv => decide (kv.2 ≠ noValue))) with
    | none =>
      refine ⟨[], by unfold getSafe; rw [h]; rfl, fun s p => ?_⟩
      constructor
      · intro h; cases h
      · rintro ⟨v, r, hv, -⟩
        rw [(kept_lookup hnd).2 hv] at h
        cases h
    | some v =>
      have hk := (kept_lookup hnd).1 h
      obtain ⟨l, h1, h2⟩ := getSafe_leaves (at_wf (.key hk.1 .here) hw) h hk.2
      refine ⟨l, h1, fun s p => ?_⟩
      rw [h2]
      constructor
      · rintro ⟨r, h3, h4⟩
        exact ⟨v, r, hk, h3, h4⟩
      · rintro ⟨w, r, hw', h3, h4⟩
        rw [(kept_lookup hnd).2 hw'] at h
        cases h
        exact ⟨r, h3, h4⟩
  obtain ⟨l, hl, hm⟩ := eff
  simp only [withoutNoValue, policyStatement, hl]
  refine ⟨_, rfl, fun f p => ?_⟩
  rw [List.mem_append, List.mem_append, List.mem_append, List.mem_append]
  have h1 : (f, p) ∈ ((st.filter (fun kv => decide (kv.2 ≠ noValue))).flatMap (fun kv => if kv.1 ∈ statementKeys then [] else [(IamFault.statementKey kv.1, branch ++ [kv.1])])) ↔
      ∃ k v, Kept st k v ∧ (∀ s ∈ statementNames, k ≠ .str s) ∧ f = .statementKey k ∧ p = branch ++ [k] := by
    rw [List.mem_flatMap]
    constructor
    · rintro ⟨⟨k, v⟩, h1, h2⟩
      rw [mem_ite_nil] at h2
      obtain ⟨h3, h4⟩ := h2
      cases h4
      exact ⟨k, v, mem_withoutNoValue.1 h1, fun s hs e => h3 ((statementKeys_iff _).2 ⟨s, hs, e⟩), rfl, rfl⟩
    · rintro ⟨k, v, h1, h2, rfl, rfl⟩
      refine ⟨(k, v), mem_withoutNoValue.2 h1, mem_ite_nil.2 ⟨fun h => ?_, rfl⟩⟩
      obtain ⟨s, hs, e⟩ := (statementKeys_iff _).1 h
      exact h2 s hs e
  have h2 : (f, p) ∈ (if hasKey (st.filter (fun kv => decide (kv.2 ≠ noValue))) "Effect" then effectFaults branch l else [(.noEffect, branch)]) ↔
      (Without st ["Effect"] ∧ f = .noEffect ∧ p = branch) ∨
        ∃ v r s, Kept st (.str "Effect") v ∧ Leaf v r (.str s) ∧ s ≠ "Allow" ∧ s ≠ "Deny" ∧ f = .effect ∧ p = branch ++ .str "Effect" :: r := by
    by_cases hE : Without st ["Effect"]
    · rw [if_neg (by rw [hasKey_iff hnd]; exact fun h => h hE), List.mem_singleton, Prod.mk.injEq]
      constructor
      · rintro h; exact .inl ⟨hE, h⟩
      · rintro (h | ⟨v, r, s, h, -⟩)
        · exact h.2
        · exact absurd h (hE "Effect" (by simp) v)
    · rw [if_pos ((hasKey_iff hnd).2 hE), mem_effectFaults]
      constructor
      · rintro ⟨rfl, s, r, g1, g2, g3, rfl⟩
        obtain ⟨v, r', h4, h5, rfl⟩ := (hm _ _).1 g1
        exact .inr ⟨v, r', s, h4, h5, g2, g3, rfl, rfl⟩
      · rintro (h | ⟨v, r, s, h4, h5, h2, h3, rfl, rfl⟩)
        · exact absurd h.1 hE
        · exact ⟨rfl, s, _, (hm _ _).2 ⟨v, r, h4, h5, rfl⟩, h2, h3, rfl⟩
  rw [h1, h2, mem_ite_nil, hasKey_two hnd, not_not]
  have h3 : (f, p) ∈ (if identity = true then
          if (hasKey (st.filter (fun kv => decide (kv.2 ≠ noValue))) "Principal" || hasKey (st.filter (fun kv => decide (kv.2 ≠ noValue))) "NotPrincipal") = true
            then [(IamFault.principal, branch)] else []
        else
          if (hasKey (st.filter (fun kv => decide (kv.2 ≠ noValue))) "Principal" || hasKey (st.filter (fun kv => decide (kv.2 ≠ noValue))) "NotPrincipal") = true
            then [] else [(.noPrincipal, branch ++ [.str "Principal"])]) ↔
      (identity = true ∧ ¬ Without st ["Principal", "NotPrincipal"] ∧ f = .principal ∧ p = branch) ∨
        (identity = false ∧ Without st ["Principal", "NotPrincipal"] ∧ f = .noPrincipal ∧ p = branch ++ [.str "Principal"]) := by
    cases identity with
    | true => simp only [if_true]; rw [mem_ite_one, hasKey_two hnd, Prod.mk.injEq]; simp
    | false => simp only [Bool.false_eq_true, if_false]; rw [mem_ite_nil, hasKey_two hnd, not_not, Prod.mk.injEq]; simp
  have h4 : (f, p) ∈ (if exception = true then [] else
        if (hasKey (st.filter (fun kv => decide (kv.2 ≠ noValue))) "Resource" || hasKey (st.filter (fun kv => decide (kv.2 ≠ noValue))) "NotResource") = true
          then [] else [(IamFault.noResource, branch)]) ↔
      exception = false ∧ Without st ["Resource", "NotResource"] ∧ f = .noResource ∧ p = branch := by
    cases exception with
    | true => simp
    | false => simp only [Bool.false_eq_true, if_false]; rw [mem_ite_nil, hasKey_two hnd, not_not, Prod.mk.injEq]; simp
  rw [h3, h4, Prod.mk.injEq]
  constructor
  · rintro ((((⟨k, v, a, b, rfl, rfl⟩ | ⟨a, rfl, rfl⟩ | ⟨v, r, s, a, b, c, d, rfl, rfl⟩) | ⟨a, rfl, rfl⟩) | ⟨a, b, rfl, rfl⟩ | ⟨a, b, rfl, rfl⟩) | ⟨a, b, rfl, rfl⟩)
    · exact ⟨_, .key a b, rfl⟩
    · exact ⟨_, .noEffect a, by simp⟩
    · exact ⟨_, .effect a b c d, rfl⟩
    · exact ⟨_, .noAction a, by simp⟩
    · exact ⟨_, .principal a b, by simp⟩
    · exact ⟨_, .noPrincipal a b, rfl⟩
    · exact ⟨_, .noResource a b, by simp⟩
  · rintro ⟨r, hr, rfl⟩
    cases hr with
    | key a b => exact .inl (.inl (.inl (.inl ⟨_, _, a, b, rfl, rfl⟩)))
    | noEffect a => exact .inl (.inl (.inl (.inr (.inl ⟨a, rfl, by simp⟩))))
    | effect a b c d => exact .inl (.inl (.inl (.inr (.inr ⟨_, _, _, a, b, c, d, rfl, rfl⟩))))
    | noAction a => exact .inl (.inl (.inr ⟨a, rfl, by simp⟩))
    | principal a b => exact .inl (.inr (.inl ⟨a, b, rfl, by simp⟩))
    | noPrincipal a b => exact .inl (.inr (.inr ⟨a, b, rfl, rfl⟩))
    | noResource a b => exact .inr ⟨a, b, rfl, by simp⟩

/-- the statements are objects in all branches, if the value is an object -/
def OrderlyStatements (s : Val) : Prop := (∃ es, s = .dict es) → ∀ r u, Leaf s r u → ∃ st, u = .dict st

theorem policyStatements_spec {s : Val} (hw : s.WF) (ho : OrderlyStatements s) (identity exception : Bool) (p : Path) :
    ∃ l, policyStatements identity exception s p = .ok l ∧ ∀ f q, (f, q) ∈ l ↔
      ((∀ xs, s ≠ .list xs) ∧ (∀ es, s ≠ .dict es) ∧ f = .notList ∧ q = p ++ [.str "Statement"]) ∨
        ∃ r st r', StatementAt s r st ∧ StatementFault identity exception st f r' ∧ q = p ++ .str "Statement" :: r ++ r' := by
  have go : ∀ ss : List (Val × Path),
      (∀ w b, (w, b) ∈ ss ↔ ∃ r st, StatementAt s r st ∧ b = p ++ .str "Statement" :: r ∧ w = withoutNoValue (.dict st)) →
      ∃ l, collectM (fun sp : Val × Path => policyStatement identity exception sp.1 sp.2) ss = .ok l ∧
        ∀ f q, (f, q) ∈ l ↔ ∃ r st r', StatementAt s r st ∧ StatementFault identity exception st f r' ∧ q = p ++ .str "Statement" :: r ++ r' := by
    intro ss hss
    have hst : ∀ {r st}, StatementAt s r st → (Val.dict st).WF := by
      rintro r st (⟨xs, i, x, r', rfl, hi, hl, -⟩ | ⟨-, hl⟩)
      · rw [Val.WF] at hw
        exact leaf_wf hl (wfList_at hw (List.mem_of_getElem? hi))
      · exact leaf_wf hl hw
    obtain ⟨l, h1, h2⟩ := collectM_spec (as := ss) (f := fun sp : Val × Path => policyStatement identity exception sp.1 sp.2)
      (P := fun sp fq => ∃ r st r', StatementAt s r st ∧ sp = (withoutNoValue (.dict st), p ++ .str "Statement" :: r) ∧
        StatementFault identity exception st fq.1 r' ∧ fq.2 = p ++ .str "Statement" :: r ++ r') (by
      rintro ⟨w, b⟩ hm
      obtain ⟨r, st, h1, rfl, rfl⟩ := (hss _ _).1 hm
      obtain ⟨l, h2, h3⟩ := policyStatement_spec (hst h1) identity exception (p ++ .str "Statement" :: r)
      refine ⟨l, h2, ?_⟩
      rintro ⟨f, q⟩
      constructor
      · intro h
        obtain ⟨r', h4, rfl⟩ := (h3 f q).1 h
        exact ⟨r, st, r', h1, rfl, h4, rfl⟩
      · rintro ⟨r0, st0, r', h4, h5, h6, h7⟩
        simp only [Prod.mk.injEq, withoutNoValue, Val.dict.injEq, List.append_cancel_left_eq, List.cons.injEq, true_and] at h5
        obtain ⟨e1, rfl⟩ := h5
        simp only at h6 h7
        obtain ⟨l', h2', h3'⟩ := policyStatement_spec (hst h4) identity exception (p ++ .str "Statement" :: r)
        have : withoutNoValue (.dict st0) = withoutNoValue (.dict st) := by simp only [withoutNoValue, e1]
        rw [this, h2] at h2'
        cases h2'
        exact (h3' f q).2 ⟨r', h6, h7⟩)
    refine ⟨l, h1, fun f q => ?_⟩
    rw [h2]
    constructor
    · rintro ⟨⟨w, b⟩, hm, r, st, r', h3, h4, h5, h6⟩
      exact ⟨r, st, r', h3, h5, h6⟩
    · rintro ⟨r, st, r', h3, h5, h6⟩
      exact ⟨_, (hss _ _).2 ⟨r, st, h3, rfl, rfl⟩, r, st, r', h3, rfl, h5, h6⟩
  have drop : ∀ {P Q : Prop}, ¬ P → ((P ∨ Q) ↔ Q) := fun h => ⟨fun h' => h'.resolve_left h, .inr⟩
  cases s with
  | list xs =>
    obtain ⟨l, h1, h2⟩ := go (listItemsSafe [.dict] xs 0 (p ++ [.str "Statement"])) (by
      intro w b
      rw [Val.WF] at hw
      rw [mem_listItemsSafe _ _ _ _ _ _ hw]
      constructor
      · rintro ⟨j, x, q, u, h1, h2, rfl, rfl, h3⟩
        cases u <;> simp [okType, Val.isInst, Val.isDict] at h3
        exact ⟨_, _, .inl ⟨xs, j, x, q, rfl, h1, h2, rfl⟩, by simp, rfl⟩
      · rintro ⟨r, st, (⟨ys, i, x, r', e, h1, h2, rfl⟩ | ⟨⟨_, e⟩, -⟩), rfl, rfl⟩
        · cases e
          exact ⟨i, x, r', _, h1, h2, by simp, rfl, rfl⟩
        · cases e)
    refine ⟨l, h1, fun f q => ?_⟩
    rw [h2, drop (fun h => h.1 xs rfl)]
  | dict es =>
    obtain ⟨l, h1, h2⟩ := go (itemsSafe [] es (p ++ [.str "Statement"])) (by
      intro w b
      rw [mem_itemsSafe _ _ _ _ _ hw]
      constructor
      · rintro ⟨q, u, h1, rfl, rfl, -⟩
        obtain ⟨st, rfl⟩ := ho ⟨es, rfl⟩ _ _ h1
        exact ⟨_, _, .inr ⟨⟨es, rfl⟩, h1⟩, by simp, rfl⟩
      · rintro ⟨r, st, (⟨ys, i, x, r', e, -⟩ | ⟨-, h1⟩), rfl, rfl⟩
        · cases e
        · exact ⟨r, _, h1, by simp, rfl, rfl⟩)
    refine ⟨l, h1, fun f q => ?_⟩
    rw [h2, drop (fun h => h.2.1 es rfl)]
  | _ =>
    refine ⟨_, rfl, fun f q => ?_⟩
    rw [List.mem_singleton, Prod.mk.injEq]
    constructor
    · rintro ⟨rfl, rfl⟩
      exact .inl ⟨by simp, by simp, rfl, rfl⟩
    · rintro (⟨-, -, h⟩ | ⟨r, st, r', (⟨ys, i, x, _, e, -⟩ | ⟨⟨_, e⟩, -⟩), -⟩)
      · exact h
      · cases e
      · cases e

/-- where the statements are given as an object, what is no object in some branch raises -/
theorem policyStatements_orderly {s : Val} (hw : s.WF) {identity exception : Bool} {p : Path} {l : List IamFinding}
    (h : policyStatements identity exception s p = .ok l) : OrderlyStatements s := by
  rintro ⟨es, rfl⟩ r u hl
  rw [policyStatements] at h
  obtain ⟨l', hl'⟩ := collectM_each h _ ((mem_itemsSafe [] es (p ++ [.str "Statement"]) _ _ hw).2 ⟨r, u, hl, rfl, rfl, rfl⟩)
  cases u with
  | dict st => exact ⟨st, rfl⟩
  | _ => cases hl'

/-- the path that is reported: for a key of the document the path of the document comes twice -/
def reportedAt (path : Path) : IamFault → Path → Path
  | .key _, p => path ++ path ++ p
  | _, p => path ++ p

theorem reportedAt_statement {identity exception : Bool} {st : List (Key × Val)} {f : IamFault} {r p path : Path} (h : StatementFault identity exception st f r) :
    reportedAt path f p = path ++ p := by
  cases h <;> rfl

/-- the findings for an entry -/
theorem policyEntry_spec {kv : Key × Val} (hw : kv.2.WF) (ho : kv.1 = .str "Statement" → OrderlyStatements kv.2) (identity exception : Bool) (path q : Path) :
    ∃ l, policyEntry identity exception path (path ++ q) kv = .ok l ∧ ∀ f p, (f, p) ∈ l ↔ ∃ p', p = reportedAt path f (q ++ p') ∧
      ((kv.1 ≠ .str "Version" ∧ kv.1 ≠ .str "Id" ∧ kv.1 ≠ .str "Statement" ∧ f = .key kv.1 ∧ p' = [kv.1]) ∨
        (kv.1 = .str "Version" ∧ kv.2 ≠ .str "2012-10-17" ∧ kv.2 ≠ .str "2008-10-17" ∧ f = .version ∧ p' = [.str "Version"]) ∨
        (kv.1 = .str "Statement" ∧ (((∀ xs, kv.2 ≠ .list xs) ∧ (∀ es, kv.2 ≠ .dict es) ∧ f = .notList ∧ p' = [.str "Statement"]) ∨
          ∃ r st r', StatementAt kv.2 r st ∧ StatementFault identity exception st f r' ∧ p' = .str "Statement" :: r ++ r'))) := by
  obtain ⟨k, v⟩ := kv
  simp only at hw ho
  unfold policyEntry
  simp only
  by_cases hS : k = .str "Statement"
  · subst hS
    obtain ⟨l, h1, h2⟩ := policyStatements_spec hw (ho rfl) identity exception (path ++ q)
    refine ⟨l, by rw [if_pos rfl, h1]; simp [policyKeys], fun f p => ?_⟩
    rw [h2]
    constructor
    · rintro (⟨a, b, rfl, rfl⟩ | ⟨r, st, r', a, b, rfl⟩)
      · exact ⟨_, by simp [reportedAt], .inr (.inr ⟨rfl, .inl ⟨a, b, rfl, rfl⟩⟩)⟩
      · exact ⟨_, by rw [reportedAt_statement b]; simp, .inr (.inr ⟨rfl, .inr ⟨r, st, r', a, b, rfl⟩⟩)⟩
    · rintro ⟨p', rfl, (⟨-, -, h, -⟩ | ⟨h, -⟩ | ⟨-, (⟨a, b, rfl, rfl⟩ | ⟨r, st, r', a, b, rfl⟩)⟩)⟩
      · exact absurd rfl h
      · simp at h
      · exact .inl ⟨a, b, rfl, by simp [reportedAt]⟩
      · exact .inr ⟨r, st, r', a, b, by rw [reportedAt_statement b]; simp⟩
  · rw [if_neg hS]
    refine ⟨_, rfl, fun f p => ?_⟩
    rw [List.mem_append, mem_ite_nil, mem_ite_one, Prod.mk.injEq, Prod.mk.injEq]
    constructor
    · rintro (⟨a, rfl, rfl⟩ | ⟨⟨rfl, a⟩, rfl, rfl⟩)
      · simp only [policyKeys, List.mem_cons, List.not_mem_nil, or_false, not_or] at a
        exact ⟨_, by simp [reportedAt], .inl ⟨a.1, a.2.1, hS, rfl, rfl⟩⟩
      · simp only [policyVersions, List.mem_cons, List.not_mem_nil, or_false, not_or] at a
        exact ⟨_, by simp [reportedAt], .inr (.inl ⟨rfl, a.1, a.2, rfl, rfl⟩)⟩
    · rintro ⟨p', rfl, (⟨a, b, -, rfl, rfl⟩ | ⟨rfl, a, b, rfl, rfl⟩ | ⟨h, -⟩)⟩
      · exact .inl ⟨by simp [policyKeys, a, b, hS], rfl, by simp [reportedAt]⟩
      · exact .inr ⟨⟨rfl, by simp [policyVersions, a, b]⟩, rfl, by simp [reportedAt]⟩
      · exact absurd h hS

/-- C92: the findings for a document are its faults; a fault that is a key is reported with the path of the document twice. -/
theorem C92_document_exact {kvs : List (Key × Val)} (hw : (Val.dict kvs).WF) (ho : Orderly (.dict kvs)) (identity exception : Bool) (path : Path) :
    ∃ l, policyObject identity exception kvs path = .ok l ∧
      ∀ f p, (f, p) ∈ l ↔ ∃ p', DocFault identity exception (.dict kvs) f p' ∧ p = reportedAt path f p' := by
  have hleaf : ∀ {q es}, Leaf (.dict kvs) q (.dict es) → (Val.dict es).WF := fun h => leaf_wf h hw
  have each : ∀ q es, Leaf (.dict kvs) q (.dict es) →
      ∃ l, collectM (policyEntry identity exception path (path ++ q)) (es.filter (fun kv => decide (kv.2 ≠ noValue))) = .ok l ∧
        ∀ b : IamFinding, b ∈ l ↔ ∃ kv ∈ es.filter (fun kv => decide (kv.2 ≠ noValue)), ∃ p', b.2 = reportedAt path b.1 (q ++ p') ∧
      ((kv.1 ≠ .str "Version" ∧ kv.1 ≠ .str "Id" ∧ kv.1 ≠ .str "Statement" ∧ b.1 = .key kv.1 ∧ p' = [kv.1]) ∨
        (kv.1 = .str "Version" ∧ kv.2 ≠ .str "2012-10-17" ∧ kv.2 ≠ .str "2008-10-17" ∧ b.1 = .version ∧ p' = [.str "Version"]) ∨
        (kv.1 = .str "Statement" ∧ (((∀ xs, kv.2 ≠ .list xs) ∧ (∀ es, kv.2 ≠ .dict es) ∧ b.1 = .notList ∧ p' = [.str "Statement"]) ∨
          ∃ r st r', StatementAt kv.2 r st ∧ StatementFault identity exception st b.1 r' ∧ p' = .str "Statement" :: r ++ r'))) := by
    intro q es hl
    refine collectM_spec (fun kv hkv => ?_)
    obtain ⟨k, v⟩ := kv
    have hk := mem_withoutNoValue.1 hkv
    obtain ⟨l, h1, h2⟩ := policyEntry_spec (kv := (k, v)) (at_wf (.key hk.1 .here) (hleaf hl)) (fun hS => by
      simp only at hS
      subst hS
      rintro ⟨es', rfl⟩ r u hu
      exact ho q es es' hl hk r u hu) identity exception path q
    exact ⟨l, h1, fun b => h2 b.1 b.2⟩
  obtain ⟨l, h1, h2⟩ := collectM_spec (as := itemsSafe [.dict] kvs path) (f := fun dp : Val × Path =>
      match dp.1 with
      | .dict es => collectM (policyEntry identity exception path dp.2) es
      | _ => .ok [])
    (P := fun dp b => ∃ q es, Leaf (.dict kvs) q (.dict es) ∧ dp = (withoutNoValue (.dict es), path ++ q) ∧
      ∃ kv ∈ es.filter (fun kv => decide (kv.2 ≠ noValue)), ∃ p', b.2 = reportedAt path b.1 (q ++ p') ∧
      ((kv.1 ≠ .str "Version" ∧ kv.1 ≠ .str "Id" ∧ kv.1 ≠ .str "Statement" ∧ b.1 = .key kv.1 ∧ p' = [kv.1]) ∨
        (kv.1 = .str "Version" ∧ kv.2 ≠ .str "2012-10-17" ∧ kv.2 ≠ .str "2008-10-17" ∧ b.1 = .version ∧ p' = [.str "Version"]) ∨
        (kv.1 = .str "Statement" ∧ (((∀ xs, kv.2 ≠ .list xs) ∧ (∀ es, kv.2 ≠ .dict es) ∧ b.1 = .notList ∧ p' = [.str "Statement"]) ∨
          ∃ r st r', StatementAt kv.2 r st ∧ StatementFault identity exception st b.1 r' ∧ p' = .str "Statement" :: r ++ r')))) (by
    rintro ⟨w, b⟩ hm
    obtain ⟨q, u, hl, rfl, rfl, hu⟩ := (mem_itemsSafe _ _ _ _ _ hw).1 hm
    cases u <;> simp [okType, Val.isInst, Val.isDict] at hu
    rename_i es
    obtain ⟨l, h1, h2⟩ := each q es hl
    refine ⟨l, by simpa only [withoutNoValue] using h1, fun b => ?_⟩
    rw [h2]
    constructor
    · intro h
      exact ⟨q, es, hl, rfl, h⟩
    · rintro ⟨q', es', hl', e, h⟩
      simp only [withoutNoValue, Prod.mk.injEq, Val.dict.injEq, List.append_cancel_left_eq] at e
      obtain ⟨e1, rfl⟩ := e
      rw [e1]
      exact h)
  refine ⟨l, h1, fun f p => ?_⟩
  rw [h2]
  constructor
  · rintro ⟨dp, -, q, es, hl, -, ⟨k, v⟩, hk, p', h3, h4⟩
    have hk := mem_withoutNoValue.1 hk
    simp only at h3 h4
    rcases h4 with ⟨a, b, c, rfl, rfl⟩ | ⟨rfl, a, b, rfl, rfl⟩ | ⟨rfl, (⟨a, b, rfl, rfl⟩ | ⟨r, st, r', a, b, rfl⟩)⟩
    · exact ⟨_, .key hl hk a b c, h3⟩
    · exact ⟨_, .version hl hk a b, h3⟩
    · exact ⟨_, .notList hl hk a b, h3⟩
    · exact ⟨_, .statement hl hk a b, by rw [h3]; simp⟩
  · rintro ⟨p', hf, rfl⟩
    cases hf with
    | key hl hk a b c =>
      exact ⟨_, (mem_itemsSafe _ _ _ _ _ hw).2 ⟨_, _, hl, rfl, rfl, rfl⟩, _, _, hl, rfl, (_, _), mem_withoutNoValue.2 hk, _, rfl, .inl ⟨a, b, c, rfl, rfl⟩⟩
    | version hl hk a b =>
      exact ⟨_, (mem_itemsSafe _ _ _ _ _ hw).2 ⟨_, _, hl, rfl, rfl, rfl⟩, _, _, hl, rfl, (_, _), mem_withoutNoValue.2 hk, _, rfl, .inr (.inl ⟨rfl, a, b, rfl, rfl⟩)⟩
    | notList hl hk a b =>
      exact ⟨_, (mem_itemsSafe _ _ _ _ _ hw).2 ⟨_, _, hl, rfl, rfl, rfl⟩, _, _, hl, rfl, (_, _), mem_withoutNoValue.2 hk, _, rfl,
        .inr (.inr ⟨rfl, .inl ⟨a, b, rfl, rfl⟩⟩)⟩
    | statement hl hk a b =>
      exact ⟨_, (mem_itemsSafe _ _ _ _ _ hw).2 ⟨_, _, hl, rfl, rfl, rfl⟩, _, _, hl, rfl, (_, _), mem_withoutNoValue.2 hk, _, by rw [List.append_assoc],
        .inr (.inr ⟨rfl, .inr ⟨_, _, _, a, b, rfl⟩⟩)⟩

/-- C92: the check of a document ends without an exception exactly if its statements, where they are an object, are objects in all branches. -/
theorem C92_document_ok_iff {kvs : List (Key × Val)} (hw : (Val.dict kvs).WF) (identity exception : Bool) (path : Path) :
    (∃ l, policyObject identity exception kvs path = .ok l) ↔ Orderly (.dict kvs) := by
  constructor
  · rintro ⟨l, h⟩ q es ds hl hk r u hu
    obtain ⟨l1, h1⟩ := collectM_each h _ ((mem_itemsSafe [.dict] kvs path _ _ hw).2 ⟨q, _, hl, rfl, rfl, rfl⟩)
    simp only [withoutNoValue] at h1
    obtain ⟨l2, h2⟩ := collectM_each h1 _ (mem_withoutNoValue.2 hk)
    have hdw : (Val.dict ds).WF := at_wf (.key hk.1 .here) (leaf_wf hl hw)
    unfold policyEntry at h2
    simp only [if_pos] at h2
    cases hp : policyStatements identity exception (.dict ds) (path ++ q) with
    | error e => rw [hp] at h2; cases h2
    | ok l3 => exact policyStatements_orderly hdw hp ⟨ds, rfl⟩ r u hu
  · intro ho
    obtain ⟨l, h, -⟩ := C92_document_exact hw ho identity exception path
    exact ⟨l, h⟩

/-- a value that can be checked: the document it gives is well formed, and its statements do not raise -/
def GoodDocument (decode : String → Option Val) (u : Val) : Prop := ∀ es, GivesDoc decode u es → (Val.dict es).WF ∧ Orderly (.dict es)

theorem policyDocument_spec {decode : String → Option Val} {u : Val} (h : GoodDocument decode u) (identity exception : Bool) (path : Path) :
    ∃ l, policyDocument decode identity exception u path = .ok l ∧
      ∀ f p, (f, p) ∈ l ↔ ∃ p', DocProblem decode identity exception u f p' ∧ p = reportedAt path f p' := by
  have none : (¬ ∃ kvs, GivesDoc decode u kvs) → ∀ f p, (f, p) ∈ [(IamFault.notJson, path)] ↔
      ∃ p', DocProblem decode identity exception u f p' ∧ p = reportedAt path f p' := by
    intro hn f p
    rw [List.mem_singleton, Prod.mk.injEq]
    constructor
    · rintro ⟨rfl, rfl⟩
      exact ⟨[], .inl ⟨hn, rfl, rfl⟩, by simp [reportedAt]⟩
    · rintro ⟨p', (⟨-, rfl, rfl⟩ | ⟨kvs, hd, -⟩), rfl⟩
      · exact ⟨rfl, by simp [reportedAt]⟩
      · exact absurd ⟨kvs, hd⟩ hn
  have some : ∀ kvs, GivesDoc decode u kvs → (∀ kvs', GivesDoc decode u kvs' → kvs' = kvs) →
      ∃ l, policyObject identity exception kvs path = .ok l ∧
        ∀ f p, (f, p) ∈ l ↔ ∃ p', DocProblem decode identity exception u f p' ∧ p = reportedAt path f p' := by
    intro kvs hd huniq
    obtain ⟨l, h1, h2⟩ := C92_document_exact (h kvs hd).1 (h kvs hd).2 identity exception path
    refine ⟨l, h1, fun f p => ?_⟩
    rw [h2]
    constructor
    · rintro ⟨p', h3, h4⟩
      exact ⟨p', .inr ⟨kvs, hd, h3⟩, h4⟩
    · rintro ⟨p', (⟨hn, -⟩ | ⟨kvs', hd', h3⟩), h4⟩
      · exact absurd ⟨kvs, hd⟩ hn
      · cases huniq kvs' hd'
        exact ⟨p', h3, h4⟩
  cases u with
  | str s =>
    rw [policyDocument]
    cases hd : decode s with
    | none =>
      refine ⟨_, rfl, none ?_⟩
      rintro ⟨kvs, (h | ⟨s', e, h⟩)⟩
      · cases h
      · cases e; rw [hd] at h; cases h
    | some v =>
      cases v with
      | dict kvs =>
        refine some kvs (.inr ⟨s, rfl, hd⟩) ?_
        rintro kvs' (h | ⟨s', e, h⟩)
        · cases h
        · cases e; rw [hd] at h; cases h; rfl
      | _ =>
        refine ⟨_, rfl, none ?_⟩
        rintro ⟨kvs, (h | ⟨s', e, h⟩)⟩
        · cases h
        · cases e; rw [hd] at h; cases h
  | dict kvs =>
    refine some kvs (.inl rfl) ?_
    rintro kvs' (h | ⟨s', e, h⟩)
    · cases h; rfl
    · cases e
  | _ =>
    refine ⟨_, rfl, none ?_⟩
    rintro ⟨kvs, (h | ⟨s', e, h⟩)⟩
    · cases h
    · cases e

/-- the documents of the property of an object -/
def DocsAt (kvs : List (Key × Val)) (k : String) (p : Path) (u : Val) : Prop :=
  ∃ v q, (Key.str k, v) ∈ kvs ∧ PropValue v q u ∧ NoCall u ∧ p = .str k :: q

/-- the documents of a resource: those of five properties, and those of the elements of the list `Policies` -/
def ResourceDoc (kvs : List (Key × Val)) (p : Path) (u : Val) : Prop :=
  (∃ k ∈ ["PolicyDocument", "KeyPolicy", "AccessPolicies", "RepositoryPolicyText", "InlinePolicy"], DocsAt kvs k p u) ∨
    ∃ xs i es p', (Key.str "Policies", Val.list xs) ∈ kvs ∧ xs[i]? = some (.dict es) ∧ DocsAt es "PolicyDocument" p' u ∧
      p = .str "Policies" :: .int (i : Nat) :: p'

/-- the values of the property are not null and can be checked -/
def DocsGood (decode : String → Option Val) (kvs : List (Key × Val)) (k : String) : Prop :=
  ∀ v, (Key.str k, v) ∈ kvs → v ≠ .none ∧ (∀ q, ¬ Leaf v q .none) ∧ ∀ q u, PropValue v q u → NoCall u → GoodDocument decode u

theorem checkDocs {decode : String → Option Val} {kvs : List (Key × Val)} {k : String} (hw : (Val.dict kvs).WF) (hg : DocsGood decode kvs k) (n : Nat)
    (identity exception : Bool) (path : Path) :
    ∃ l, checkValue (n + 2) { value := some (policyDocument decode identity exception) } (.dict kvs) k path = .ok l ∧
      ∀ f p, (f, p) ∈ l ↔ ∃ d u p', DocsAt kvs k d u ∧ DocProblem decode identity exception u f p' ∧ p = reportedAt (path ++ d) f p' := by
  have hnd : (kvs.map Prod.fst).Nodup := by rw [Val.WF] at hw; exact hw.1
  cases hd : dlookup (Key.str k) kvs with
  | none =>
    refine ⟨[], by simp [checkValue, hd, getValues], fun f p => ?_⟩
    constructor
    · intro h; cases h
    · rintro ⟨d, u, p', ⟨v, q, hm, -⟩, -⟩
      rw [dlookup_of_mem hnd hm] at hd
      cases hd
  | some v =>
    obtain ⟨h0, hnull, hgood⟩ := hg v (dlookup_mem hd)
    obtain ⟨l, h1, h2⟩ := checkValue_only (f := policyDocument decode identity exception) hd h0 hnull n (path := path) (fun q u hu hn => by
      obtain ⟨l, hl, -⟩ := policyDocument_spec (hgood q u hu hn) identity exception (path ++ .str k :: q)
      exact ⟨l, hl⟩)
    refine ⟨l, h1, fun f p => ?_⟩
    rw [h2]
    constructor
    · rintro ⟨q, u, l', a, b, c, d⟩
      obtain ⟨l'', e1, e2⟩ := policyDocument_spec (hgood q u a b) identity exception (path ++ .str k :: q)
      rw [e1] at c
      cases c
      obtain ⟨p', e3, e4⟩ := (e2 f p).1 d
      exact ⟨_, u, p', ⟨v, q, dlookup_mem hd, a, b, rfl⟩, e3, e4⟩
    · rintro ⟨d, u, p', ⟨v', q, hm, a, b, rfl⟩, e3, e4⟩
      rw [dlookup_of_mem hnd hm] at hd
      cases hd
      obtain ⟨l'', e1, e2⟩ := policyDocument_spec (hgood q u a b) identity exception (path ++ .str k :: q)
      exact ⟨q, u, l'', a, b, e1, (e2 f p).2 ⟨p', e3, e4⟩⟩

/-- the documents of the resource can be checked -/
structure GoodPolicies (decode : String → Option Val) (kvs : List (Key × Val)) : Prop where
  wf : (Val.dict kvs).WF
  docs : ∀ k ∈ documentKeys, DocsGood decode kvs k
  policies : ∀ xs es, (Key.str "Policies", Val.list xs) ∈ kvs → .dict es ∈ xs → DocsGood decode es "PolicyDocument"

theorem policyProperty_spec {decode : String → Option Val} {kvs : List (Key × Val)} (h : GoodPolicies decode kvs) (n : Nat) (identity exception : Bool)
    (path : Path) {kv : Key × Val} (hkv : kv ∈ kvs) :
    ∃ l, policyProperty (n + 2) decode identity exception kvs path kv = .ok l ∧
      ∀ b : IamFinding, b ∈ l ↔ ∃ d u p', ((∃ k ∈ documentKeys, kv.1 = .str k ∧ DocsAt kvs k d u) ∨
        ∃ xs i es p', kv = (Key.str "Policies", Val.list xs) ∧ xs[i]? = some (.dict es) ∧ DocsAt es "PolicyDocument" p' u ∧
          d = .str "Policies" :: .int (i : Nat) :: p') ∧ DocProblem decode identity exception u b.1 p' ∧ b.2 = reportedAt (path ++ d) b.1 p' := by
  unfold policyProperty
  simp only
  have pk : ("Policies" : String) ∉ documentKeys := by decide +kernel
  split
  · rename_i xs
    have hxs : Val.WFList xs := by
      have := at_wf (.key hkv .here) h.wf
      rwa [Val.WF] at this
    obtain ⟨l, h1, h2⟩ := collectM_spec (as := xs.zipIdx)
      (f := fun xi : Val × Nat => checkValue (n + 2) { value := some (policyDocument decode identity exception) } xi.1 "PolicyDocument"
        (path ++ [.str "Policies", .int xi.2]))
      (P := fun xi b => ∃ es d u p', xi.1 = .dict es ∧ DocsAt es "PolicyDocument" d u ∧ DocProblem decode identity exception u b.1 p' ∧
        b.2 = reportedAt (path ++ .str "Policies" :: .int xi.2 :: d) b.1 p') (by
      rintro ⟨x, i⟩ hm
      have hx : x ∈ xs := by
        have := List.mem_zipIdx_iff_getElem?.1 hm
        exact List.mem_of_getElem? this
      by_cases hd : ∃ es, x = .dict es
      · obtain ⟨es, rfl⟩ := hd
        obtain ⟨l, h1, h2⟩ := checkDocs (wfList_at hxs hx) (h.policies xs es hkv hx) n identity exception (path ++ [.str "Policies", .int i])
        refine ⟨l, h1, ?_⟩
        rintro ⟨f, p⟩
        rw [h2]
        constructor
        · rintro ⟨d, u, p', a, b, c⟩
          exact ⟨es, d, u, p', rfl, a, b, by simpa using c⟩
        · rintro ⟨es', d, u, p', e, a, b, c⟩
          cases e
          exact ⟨d, u, p', a, b, by simpa using c⟩
      · refine ⟨[], ?_, ?_⟩
        · cases x with
          | dict es => exact absurd ⟨es, rfl⟩ hd
          | _ => rfl
        · intro b
          constructor
          · intro h; cases h
          · rintro ⟨es, d, u, p', e, -⟩
            exact absurd ⟨es, e⟩ hd)
    refine ⟨l, h1, fun b => ?_⟩
    rw [h2]
    constructor
    · rintro ⟨⟨x, i⟩, hm, es, d, u, p', hx, a, b, c⟩
      simp only at hx
      subst hx
      exact ⟨_, u, p', .inr ⟨xs, i, es, d, rfl, List.mem_zipIdx_iff_getElem?.1 hm, a, rfl⟩, b, c⟩
    · rintro ⟨d, u, p', (⟨k, hk, e, -⟩ | ⟨xs', i, es, d', e, hi, a, rfl⟩), b, c⟩
      · cases e
        exact absurd hk pk
      · cases e
        exact ⟨(.dict es, i), List.mem_zipIdx_iff_getElem?.2 hi, es, d', u, p', rfl, a, b, c⟩
  · rename_i k v hne
    by_cases hk : k ∈ documentKeys
    · rw [if_pos hk]
      obtain ⟨l, h1, h2⟩ := checkDocs h.wf (h.docs k hk) n identity exception path
      refine ⟨l, h1, ?_⟩
      rintro ⟨f, p⟩
      rw [h2]
      constructor
      · rintro ⟨d, u, p', a, b, c⟩
        exact ⟨d, u, p', .inl ⟨k, hk, rfl, a⟩, b, c⟩
      · rintro ⟨d, u, p', (⟨k', hk', e, a⟩ | ⟨xs, i, es, d', e, -⟩), b, c⟩
        · cases e
          exact ⟨d, u, p', a, b, c⟩
        · cases e
          exact absurd hk pk
    · rw [if_neg hk]
      refine ⟨[], rfl, fun b => ?_⟩
      constructor
      · intro h; cases h
      · rintro ⟨d, u, p', (⟨k', hk', e, a⟩ | ⟨xs, i, es, d', e, -⟩), b, c⟩
        · cases e
          exact absurd hk' hk
        · cases e
          exact absurd rfl (hne xs rfl)
  · rename_i h1 h2
    refine ⟨[], rfl, fun b => ?_⟩
    constructor
    · intro h; cases h
    · rintro ⟨d, u, p', (⟨k', hk', e, a⟩ | ⟨xs, i, es, d', e, -⟩), b, c⟩
      · obtain ⟨k, v⟩ := kv
        simp only at e
        subst e
        exact absurd rfl (h2 _ _)
      · exact absurd e (h1 xs)

/-- C92: for a resource with policies the findings are the faults of its documents. -/
theorem C92_exact {decode : String → Option Val} {kvs : List (Key × Val)} (h : GoodPolicies decode kvs) (n : Nat) {ty : String}
    (ht : ty ∈ resourcePolicyTypes ∨ ty ∈ identityPolicyTypes) (path : Path) :
    ∃ l, iamPolicy (n + 2) decode ty kvs path = .ok l ∧ ∀ f p, (f, p) ∈ l ↔ ∃ d u p', ResourceDoc kvs d u ∧
      DocProblem decode (decide (ty ∈ identityPolicyTypes)) (decide (ty = "AWS::ECR::Repository")) u f p' ∧ p = reportedAt (path ++ d) f p' := by
  have go : ∀ identity exception : Bool, ∃ l, collectM (policyProperty (n + 2) decode identity exception kvs path) kvs = .ok l ∧
      ∀ f p, (f, p) ∈ l ↔ ∃ d u p', ResourceDoc kvs d u ∧ DocProblem decode identity exception u f p' ∧ p = reportedAt (path ++ d) f p' := by
    intro identity exception
    obtain ⟨l, h1, h2⟩ := collectM_spec (fun kv hkv => policyProperty_spec h n identity exception path hkv)
    refine ⟨l, h1, fun f p => ?_⟩
    rw [h2]
    constructor
    · rintro ⟨⟨k, v⟩, hkv, d, u, p', (⟨k', hk', e, a⟩ | ⟨xs, i, es, d', e, hi, a, rfl⟩), b, c⟩
      · refine ⟨d, u, p', .inl ⟨k', ?_, a⟩, b, c⟩
        simp only [documentKeys, List.mem_cons, List.not_mem_nil, or_false] at hk' ⊢
        tauto
      · cases e
        exact ⟨_, u, p', .inr ⟨xs, i, es, d', hkv, hi, a, rfl⟩, b, c⟩
    · rintro ⟨d, u, p', (⟨k, hk, a⟩ | ⟨xs, i, es, d', hkv, hi, a, rfl⟩), b, c⟩
      · have hk' : k ∈ documentKeys := by
          simp only [documentKeys, List.mem_cons, List.not_mem_nil, or_false] at hk ⊢
          tauto
        obtain ⟨v, q, hm, a'⟩ := a
        exact ⟨(.str k, v), hm, d, u, p', .inl ⟨k, hk', rfl, v, q, hm, a'⟩, b, c⟩
      · exact ⟨_, hkv, _, u, p', .inr ⟨xs, i, es, d', rfl, hi, a, rfl⟩, b, c⟩
  have hdis : ∀ ty ∈ resourcePolicyTypes, ty ∉ identityPolicyTypes := by decide +kernel
  have hecr : "AWS::ECR::Repository" ∉ identityPolicyTypes := by decide +kernel
  unfold iamPolicy
  by_cases hr : ty ∈ resourcePolicyTypes
  · rw [if_pos hr, decide_eq_false (hdis ty hr)]
    exact go false _
  · have hi := ht.resolve_left hr
    rw [if_neg hr, if_pos hi, decide_eq_true hi, decide_eq_false (p := ty = "AWS::ECR::Repository") (by rintro rfl; exact hecr hi)]
    exact go true false

theorem policyType_iff {ty : String} : (PolicyType false ty ↔ ty ∈ resourcePolicyTypes) ∧ (PolicyType true ty ↔ ty ∈ identityPolicyTypes) := by
  constructor
  · constructor
    · intro h; cases h <;> decide +kernel
    · intro h
      simp only [resourcePolicyTypes, List.mem_cons, List.not_mem_nil, or_false] at h
      rcases h with rfl | rfl | rfl | rfl | rfl | rfl <;> constructor
  · constructor
    · intro h; cases h <;> decide +kernel
    · intro h
      simp only [identityPolicyTypes, List.mem_cons, List.not_mem_nil, or_false] at h
      rcases h with rfl | rfl | rfl | rfl | rfl | rfl <;> constructor

/-- C92: which rules apply is settled by the type of the resource; other resources have no findings. -/
theorem C92_by_type {decode : String → Option Val} {kvs : List (Key × Val)} (h : GoodPolicies decode kvs) (n : Nat) (ty : String) (path : Path) :
    ∃ l, iamPolicy (n + 2) decode ty kvs path = .ok l ∧ ∀ f p, (f, p) ∈ l ↔ ∃ identity, PolicyType identity ty ∧ ∃ d u p', ResourceDoc kvs d u ∧
      DocProblem decode identity (decide (ty = "AWS::ECR::Repository")) u f p' ∧ p = reportedAt (path ++ d) f p' := by
  have hdis : ∀ ty ∈ resourcePolicyTypes, ty ∉ identityPolicyTypes := by decide +kernel
  by_cases ht : ty ∈ resourcePolicyTypes ∨ ty ∈ identityPolicyTypes
  · obtain ⟨l, h1, h2⟩ := C92_exact h n ht path
    refine ⟨l, h1, fun f p => ?_⟩
    rw [h2]
    constructor
    · rintro hh
      rcases ht with ht | ht
      · rw [decide_eq_false (hdis ty ht)] at hh
        exact ⟨false, policyType_iff.1.2 ht, hh⟩
      · rw [decide_eq_true ht] at hh
        exact ⟨true, policyType_iff.2.2 ht, hh⟩
    · rintro ⟨b, hb, hh⟩
      cases b with
      | false => rw [decide_eq_false (hdis ty (policyType_iff.1.1 hb))]; exact hh
      | true => rw [decide_eq_true (policyType_iff.2.1 hb)]; exact hh
  · refine ⟨[], by simp only [not_or] at ht; simp [iamPolicy, ht.1, ht.2], fun f p => ?_⟩
    simp only [List.not_mem_nil, false_iff]
    rintro ⟨b, hb, _⟩
    cases b with
    | false => exact ht (.inl (policyType_iff.1.1 hb))
    | true => exact ht (.inr (policyType_iff.2.1 hb))

/-- C92: each fault other than a key of the document is reported at its path. -/
theorem C92_places_partial {decode : String → Option Val} {kvs : List (Key × Val)} (h : GoodPolicies decode kvs) (n : Nat) {ty : String}
    (ht : ty ∈ resourcePolicyTypes ∨ ty ∈ identityPolicyTypes) (path : Path) :
    ∃ l, iamPolicy (n + 2) decode ty kvs path = .ok l ∧ ∀ f p, (∀ k, f ≠ .key k) → ((f, p) ∈ l ↔ ∃ d u p', ResourceDoc kvs d u ∧
      DocProblem decode (decide (ty ∈ identityPolicyTypes)) (decide (ty = "AWS::ECR::Repository")) u f p' ∧ p = path ++ d ++ p') := by
  obtain ⟨l, h1, h2⟩ := C92_exact h n ht path
  refine ⟨l, h1, fun f p hf => ?_⟩
  rw [h2]
  cases f with
  | key k => exact absurd rfl (hf k)
  | _ => rfl

/-- C92 in full: a fault is reported, and at its path. -/
def C92_statement : Prop :=
  ∀ (decode : String → Option Val) (kvs : List (Key × Val)) (n : Nat) (ty : String) (path : Path), GoodPolicies decode kvs →
    (ty ∈ resourcePolicyTypes ∨ ty ∈ identityPolicyTypes) →
    ∃ l, iamPolicy (n + 2) decode ty kvs path = .ok l ∧ ∀ f p, (f, p) ∈ l ↔ ∃ d u p', ResourceDoc kvs d u ∧
      DocProblem decode (decide (ty ∈ identityPolicyTypes)) (decide (ty = "AWS::ECR::Repository")) u f p' ∧ p = path ++ d ++ p'

/-- a policy with the document -/
def exIamPolicy (d : Val) : List (Key × Val) := [(.str "PolicyDocument", d)]

/-- a document with a key that does not exist -/
def exIamDoc : List (Key × Val) := [(.str "Statements", .list [])]

theorem exIamDoc_leaf {q : Path} {u : Val} (h : Leaf (.dict exIamDoc) q u) : q = [] ∧ u = .dict exIamDoc := by
  unfold exIamDoc at h
  generalize hx : Val.dict [(Key.str "Statements", Val.list [])] = z at h
  cases h with
  | here => exact ⟨rfl, hx.symm⟩
  | left => simp [fnIf] at hx
  | right => simp [fnIf] at hx

theorem exIamDoc_value {q : Path} {u : Val} (h : PropValue (.dict exIamDoc) q u) : q = [] ∧ u = .dict exIamDoc := by
  obtain ⟨q', w, hl, h'⟩ := h
  obtain ⟨rfl, rfl⟩ := exIamDoc_leaf hl
  rcases h' with ⟨-, rfl, rfl⟩ | ⟨xs, _, _, _, e, -⟩
  · exact ⟨rfl, rfl⟩
  · cases e

theorem exIamDoc_good (decode : String → Option Val) : GoodPolicies decode (exIamPolicy (.dict exIamDoc)) := by
  have hw : (Val.dict exIamDoc).WF := by simp [exIamDoc, Val.WF, Val.WFDict, Val.WFList]
  refine ⟨by simp [exIamPolicy, exIamDoc, Val.WF, Val.WFDict, Val.WFList], fun k hk v hv => ?_, fun xs es h => ?_⟩
  · simp only [exIamPolicy, List.mem_singleton, Prod.mk.injEq] at hv
    obtain ⟨-, rfl⟩ := hv
    refine ⟨by simp, fun q h => ?_, fun q u h hn es hd => ?_⟩
    · have := (exIamDoc_leaf h).2
      cases this
    · obtain ⟨-, rfl⟩ := exIamDoc_value h
      rcases hd with e | ⟨s, e, -⟩
      · cases e
        refine ⟨hw, fun q es' ds hl hk => ?_⟩
        have := (exIamDoc_leaf hl).2
        cases this
        have hm := hk.1
        simp [exIamDoc] at hm
      · cases e
  · simp [exIamPolicy] at h

/-- the hypotheses of `C92_exact` and `C92_places_partial` are met -/
example : ∃ l, iamPolicy 2 (fun _ => none) "AWS::IAM::Policy" (exIamPolicy (.dict exIamDoc)) [] = .ok l :=
  have ⟨l, h, _⟩ := C92_exact (exIamDoc_good _) 0 (.inr (by decide +kernel)) []
  ⟨l, h⟩

theorem exIamDoc_run : iamPolicy 2 (fun _ => none) "AWS::IAM::Policy" (exIamPolicy (.dict exIamDoc)) [.str "R"] =
    .ok [(.key (.str "Statements"), [.str "R", .str "PolicyDocument", .str "R", .str "PolicyDocument", .str "Statements"])] := by decide +kernel

/-- C92: a key that does not exist is reported at a path that does not exist. -/
theorem C92_violated : ¬ C92_statement := by
  intro h
  obtain ⟨l, h1, h2⟩ := h (fun _ => none) _ 0 "AWS::IAM::Policy" [.str "R"] (exIamDoc_good _) (.inr (by decide +kernel))
  rw [exIamDoc_run] at h1
  cases h1
  obtain ⟨d, u, p', hd, hp, e⟩ := (h2 _ _).1 List.mem_cons_self
  rcases hd with ⟨k, hk, v, q, hm, hu, -, rfl⟩ | ⟨xs, i, es, _, hm, -⟩
  · simp only [exIamPolicy, List.mem_singleton, Prod.mk.injEq, Key.str.injEq] at hm
    obtain ⟨rfl, rfl⟩ := hm
    obtain ⟨rfl, rfl⟩ := exIamDoc_value hu
    simp only [List.cons_append, List.nil_append, List.cons.injEq, true_and] at e
    subst e
    rcases hp with ⟨-, h, -⟩ | ⟨kvs, hk, hf⟩
    · cases h
    · rcases hk with hk | ⟨_, hk, -⟩
      · cases hk
        generalize hpp : [Key.str "R", Key.str "PolicyDocument", Key.str "Statements"] = pp at hf
        cases hf with
        | key hl =>
          obtain ⟨rfl, -⟩ := exIamDoc_leaf hl
          simp at hpp
        | statement hl hk _ hf => cases hf
      · cases hk
  · simp [exIamPolicy] at hm

/-- C92: lists of statements that depend on a condition raise. -/
theorem C92_lists_raise :
    iamPolicy 2 (fun _ => none) "AWS::IAM::Policy"
      (exIamPolicy (.dict [(.str "Statement", fnIf (.str "C") (.list []) (.list []))])) [] = .error (.templateAttributeError "items is invalid") := by
  decide +kernel

/-- C92: a policy that depends on a condition is not checked. -/
theorem C92_policy_missed :
    iamPolicy 2 (fun _ => none) "AWS::IAM::Role"
      [(.str "Policies", .list [fnIf (.str "C") (.dict (exIamPolicy (.dict exIamDoc))) noValue])] [] = .ok [] := by decide +kernel

/-- C92: a statement whose effect is removed under some condition is not reported. -/
theorem C92_effect_missed :
    iamPolicy 2 (fun _ => none) "AWS::IAM::Policy" (exIamPolicy (.dict [(.str "Statement",
      .list [.dict [(.str "Effect", fnIf (.str "C") (.str "Allow") noValue), (.str "Action", .str "*"), (.str "Resource", .str "*")]])])) [] = .ok [] := by
  decide +kernel

/-- C92: a version given by a parameter is reported. -/
theorem C92_version_reported :
    iamPolicy 2 (fun _ => none) "AWS::IAM::Policy" (exIamPolicy (.dict [(.str "Version", .dict [(.str "Ref", .str "P")])])) [] =
      .ok [(.version, [.str "PolicyDocument", .str "Version"])] := by decide +kernel

/-- the hypotheses of `C92_document_exact` are met, and those of `C92_document_ok_iff` -/
example : (Val.dict exIamDoc).WF ∧ Orderly (.dict exIamDoc) :=
  ⟨by simp [exIamDoc, Val.WF, Val.WFDict, Val.WFList], fun q es ds hl hk => by
    have := (exIamDoc_leaf hl).2
    cases this
    have hm := hk.1
    simp [exIamDoc] at hm⟩

end CfnLint
