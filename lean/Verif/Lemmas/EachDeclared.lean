import Verif.Lemmas.Declared
import Verif.Spec.ValueSpecs
/- Loops over the declared properties of the objects a value may be. -/
namespace CfnLint
open Spec

theorem eachDeclared_dict {ρ : Type} {rows : List (String × ρ)} {f : String → ρ → Val → Path → PyM (List Path)} {kvs : List (Key × Val)}
    {path : Path} {F : List (Key × Val) → String → ρ → Path → Prop} (hw : (Val.dict kvs).WF)
    (ho : ∀ q u, Leaf (.dict kvs) q u → ∃ l, u = .dict l)
    (h : ∀ q l s r v, Leaf (.dict kvs) q (.dict l) → (Key.str s, v) ∈ l → v ≠ noValue → dlookup s rows = some r →
      Finds (f s r (withoutNoValue (.dict l)) (path ++ q)) (path ++ q) (F l s r)) :
    Finds (eachDeclared rows f (.dict kvs) path) path (fun x => ∃ q l s r v y, Leaf (.dict kvs) q (.dict l) ∧ (Key.str s, v) ∈ l ∧
      v ≠ noValue ∧ dlookup s rows = some r ∧ F l s r y ∧ x = q ++ y) := by
  refine finds_congr (finds_collect (as := itemsSafe [] kvs path) (F := fun wp x => ∃ q l s r v y, Leaf (.dict kvs) q (.dict l) ∧
    wp = (withoutNoValue (.dict l), path ++ q) ∧ (Key.str s, v) ∈ l ∧ v ≠ noValue ∧ dlookup s rows = some r ∧ F l s r y ∧ x = q ++ y) ?_) ?_
  · rintro ⟨w, p⟩ hm
    obtain ⟨q, u, hl, rfl, rfl, -⟩ := (mem_itemsSafe [] kvs path p w hw).1 hm
    obtain ⟨l, rfl⟩ := ho q u hl
    obtain ⟨res, h1, h2⟩ := declaredIn_dict (rows := rows) (kvs := l.filter (fun kv => decide (kv.2 ≠ noValue)))
      (f := fun prop d => f prop d (withoutNoValue (.dict l)) (path ++ q))
      (P := fun s r m => ∃ y, m = path ++ q ++ y ∧ F l s r y) (by
        intro s r v hv hr
        obtain ⟨hv1, hv2⟩ := List.mem_filter.1 hv
        exact h q l s r v hl hv1 (by simpa using hv2) hr)
    refine ⟨res, h1, fun m => ?_⟩
    rw [h2]
    constructor
    · rintro ⟨s, r, v, hv, hr, y, rfl, hF⟩
      obtain ⟨hv1, hv2⟩ := List.mem_filter.1 hv
      exact ⟨q ++ y, by simp, q, l, s, r, v, y, hl, rfl, hv1, by simpa using hv2, hr, hF, rfl⟩
    · rintro ⟨_, rfl, q', l', s, r, v, y, hl', e, hv1, hv2, hr, hF, rfl⟩
      have hq : q = q' := List.append_cancel_left (Prod.mk.inj e).2
      subst hq
      cases at_det hw (leaf_at hl) (leaf_at hl')
      exact ⟨s, r, v, List.mem_filter.2 ⟨hv1, by simpa using hv2⟩, hr, y, by simp, hF⟩
  · intro x
    constructor
    · rintro ⟨_, _, q, l, s, r, v, y, hl, -, rest⟩
      exact ⟨q, l, s, r, v, y, hl, rest⟩
    · rintro ⟨q, l, s, r, v, y, hl, rest⟩
      exact ⟨_, (mem_itemsSafe [] kvs path _ _ hw).2 ⟨q, _, hl, rfl, rfl, by simp [okType]⟩, q, l, s, r, v, y, hl, rfl, rest⟩

theorem dlookup_filter_ne {kvs : List (Key × Val)} {k : Key} {v : Val} (hn : (kvs.map Prod.fst).Nodup) (hv : (k, v) ∈ kvs) (hne : v ≠ noValue) :
    dlookup k (kvs.filter (fun kv => decide (kv.2 ≠ noValue))) = some v :=
  dlookup_of_mem ((List.filter_sublist.map Prod.fst).nodup hn) (List.mem_filter.2 ⟨hv, by simpa using hne⟩)

/-- no property declared is null, nor is a branch of one -/
def NoNullProps {ρ : Type} (rows : List (String × ρ)) (kvs : List (Key × Val)) : Prop :=
  ∀ prop d v, (prop, d) ∈ rows → (Key.str prop, v) ∈ kvs → v ≠ .none ∧ ∀ q, ¬ Leaf v q .none

/-- the check of the values of a property, if there is one -/
def byCheck (n : Nat) (chk : ValueRow → Option (Val → Path → List Path)) (prop : String) (d : ValueRow) (v : Val) (p : Path) :
    PyM (List Path) :=
  match chk d with
  | none => .ok []
  | some g => checkValue n { value := some (fun u q => .ok (g u q)) } v prop p

/-- the rules that look values up in the branches -/
theorem valueRule_finds {rows : List (String × ValueRow)} {kvs : List (Key × Val)} {path : Path} (n : Nat) {G : ValueRow → Val → Prop}
    {chk : ValueRow → Option (Val → Path → List Path)} (hrows : (rows.map Prod.fst).Nodup) (hw : (Val.dict kvs).WF)
    (ho : ∀ q u, Leaf (.dict kvs) q u → ∃ l, u = .dict l)
    (hnull : ∀ q l, Leaf (.dict kvs) q (.dict l) → NoNullProps rows l)
    (hnone : ∀ d u, chk d = none → ¬ G d u)
    (hchk : ∀ d g u, chk d = some g → ∀ p m, m ∈ g u p ↔ m = p ∧ G d u) :
    Finds (eachDeclared rows (byCheck (n + 2) chk) (.dict kvs) path) path
      (ValueFaults rows G (.dict kvs)) := by
  refine finds_congr (eachDeclared_dict (F := fun l prop d y => ∃ v q u, (Key.str prop, v) ∈ l ∧ PropValue v q u ∧ Known u ∧ G d u ∧
    y = .str prop :: q) hw ho ?_) ?_
  · intro q l s r v hl hv hne hr
    unfold byCheck
    cases hc : chk r with
    | none => exact finds_none (fun y hy => by
        obtain ⟨_, _, u, _, _, _, hg, _⟩ := hy
        exact hnone r u hc hg)
    | some g =>
      obtain ⟨h0, hnl⟩ := hnull q l hl s r v (dlookup_mem hr) hv
      have hnd : (l.map Prod.fst).Nodup := (at_wf (leaf_at hl) hw).1
      have hf := checkValue_finds (path := path ++ q) (g := g) (F := fun u r' => r' = [] ∧ G r u) (dlookup_filter_ne hnd hv hne) h0 hnl n
        (fun q' u _ _ p m => by
          rw [hchk r g u hc]
          constructor
          · rintro ⟨rfl, hg⟩
            exact ⟨[], by simp, rfl, hg⟩
          · rintro ⟨_, rfl, rfl, hg⟩
            exact ⟨by simp, hg⟩)
      refine finds_congr hf (fun y => ?_)
      constructor
      · rintro ⟨q', u, _, hp, hk, ⟨rfl, hg⟩, rfl⟩
        exact ⟨v, q', u, hv, hp, hk, hg, by simp⟩
      · rintro ⟨v', q', u, hv', hp, hk, hg, rfl⟩
        cases (dlookup_of_mem hnd hv).symm.trans (dlookup_of_mem hnd hv')
        exact ⟨q', u, [], hp, hk, ⟨rfl, hg⟩, by simp⟩
  · intro x
    constructor
    · rintro ⟨q, l, s, r, v, y, hl, hv, hne, hr, ⟨v', q', u, hv', hp, hk, hg, rfl⟩, rfl⟩
      exact ⟨q, l, _, hl, ⟨s, r, v', q', u, dlookup_mem hr, hv', hp, hk, hg, rfl⟩, rfl⟩
    · rintro ⟨q, l, _, hl, ⟨s, r, v', q', u, hr, hv', hp, hk, hg, rfl⟩, rfl⟩
      refine ⟨q, l, s, r, v', _, hl, hv', ?_, dlookup_of_mem hrows hr, ⟨v', q', u, hv', hp, hk, hg, rfl⟩, rfl⟩
      rintro rfl
      obtain ⟨q1, u1, hl1, -⟩ := hp
      exact ((leaf_of_notIf (by simp [IsIf, noValue])).1 hl1).2.2 rfl

/-- the rules that look values up in the properties themselves -/
theorem plainRule_finds {rows : List (String × ValueRow)} {kvs : List (Key × Val)} {path : Path} (n : Nat) {G : ValueRow → Val → Prop}
    {chk : ValueRow → Option (Val → Path → List Path)} (hrows : (rows.map Prod.fst).Nodup) (hw : (Val.dict kvs).WF)
    (hif : ¬ IsIf (.dict kvs)) (hnull : NoNullProps rows kvs)
    (hnone : ∀ d u, chk d = none → ¬ G d u)
    (hchk : ∀ d g u, chk d = some g → ∀ p m, m ∈ g u p ↔ m = p ∧ G d u) :
    Finds (eachDeclared rows (fun prop d _ p => byCheck (n + 2) chk prop d (.dict kvs) p) (.dict kvs) path) path
      (ValueFaults rows G (.dict kvs)) := by
  have hleaf : ∀ q u, Leaf (.dict kvs) q u → q = [] ∧ u = .dict kvs := fun q u h => by
    obtain ⟨h1, h2, -⟩ := (leaf_of_notIf hif).1 h
    exact ⟨h1, h2⟩
  refine finds_congr (eachDeclared_dict (F := fun l prop d y => ∃ v q u, (Key.str prop, v) ∈ l ∧ PropValue v q u ∧ Known u ∧ G d u ∧
    y = .str prop :: q) hw (fun q u h => ⟨kvs, (hleaf q u h).2⟩) ?_) ?_
  · intro q l s r v hl hv hne hr
    obtain ⟨rfl, e⟩ := hleaf _ _ hl
    cases e
    unfold byCheck
    cases hc : chk r with
    | none => exact finds_none (fun y hy => by
        obtain ⟨_, _, u, _, _, _, hg, _⟩ := hy
        exact hnone r u hc hg)
    | some g =>
      obtain ⟨h0, hnl⟩ := hnull s r v (dlookup_mem hr) hv
      have hnd : (kvs.map Prod.fst).Nodup := hw.1
      have hf := checkValue_finds (path := path ++ []) (g := g) (F := fun u r' => r' = [] ∧ G r u) (dlookup_of_mem hnd hv) h0 hnl n
        (fun q' u _ _ p m => by
          rw [hchk r g u hc]
          constructor
          · rintro ⟨rfl, hg⟩
            exact ⟨[], by simp, rfl, hg⟩
          · rintro ⟨_, rfl, rfl, hg⟩
            exact ⟨by simp, hg⟩)
      refine finds_congr hf (fun y => ?_)
      constructor
      · rintro ⟨q', u, _, hp, hk, ⟨rfl, hg⟩, rfl⟩
        exact ⟨v, q', u, hv, hp, hk, hg, by simp⟩
      · rintro ⟨v', q', u, hv', hp, hk, hg, rfl⟩
        cases (dlookup_of_mem hnd hv).symm.trans (dlookup_of_mem hnd hv')
        exact ⟨q', u, [], hp, hk, ⟨rfl, hg⟩, by simp⟩
  · intro x
    constructor
    · rintro ⟨q, l, s, r, v, y, hl, hv, hne, hr, ⟨v', q', u, hv', hp, hk, hg, rfl⟩, rfl⟩
      exact ⟨q, l, _, hl, ⟨s, r, v', q', u, dlookup_mem hr, hv', hp, hk, hg, rfl⟩, rfl⟩
    · rintro ⟨q, l, _, hl, ⟨s, r, v', q', u, hr, hv', hp, hk, hg, rfl⟩, rfl⟩
      refine ⟨q, l, s, r, v', _, hl, hv', ?_, dlookup_of_mem hrows hr, ⟨v', q', u, hv', hp, hk, hg, rfl⟩, rfl⟩
      rintro rfl
      obtain ⟨q1, u1, hl1, -⟩ := hp
      exact ((leaf_of_notIf (by simp [IsIf, noValue])).1 hl1).2.2 rfl

end CfnLint
