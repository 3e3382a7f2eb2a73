import Verif.Model.Patch
import Verif.Props.Override
import Verif.Props.Template
import Verif.Lemmas.Split
/-
C126. Processing a downloaded specification: what a patch does and leaves alone, that a patch that does not fit is skipped, that the order in which the system lists the
files does not matter, and what replacing the botocore types does.
-/
namespace CfnLint
open Spec

namespace Spec

/-- an object at a place has a member -/
def HasMember (d : Val) (p : List Key) : Prop := ∃ q k kvs x, p = q ++ [k] ∧ Holds d q (.dict kvs) ∧ (k, x) ∈ kvs

/-- there is an object in which the member could be -/
def HasParent (d : Val) (p : List Key) : Prop := ∃ q k kvs, p = q ++ [k] ∧ Holds d q (.dict kvs)

/-- when a patch fits a document -/
def PatchFits (d : Val) : Patch → Prop
  | .add p _ => p = [] ∨ HasParent d p
  | .remove p => HasMember d p
  | .replace p _ => p = [] ∨ HasMember d p

/-- what a patch puts at its place and below -/
def Puts : Patch → List Key → Val → Prop
  | .add p v, q, w => ∃ r, q = p ++ r ∧ Holds v r w
  | .remove _, _, _ => False
  | .replace p v, q, w => ∃ r, q = p ++ r ∧ Holds v r w

/-- the place of a patch -/
def patchPath : Patch → List Key
  | .add p _ => p
  | .remove p => p
  | .replace p _ => p

end Spec

theorem holds_cons {kvs : List (Key × Val)} (hn : (kvs.map Prod.fst).Nodup) {k : Key} {p : List Key} {w : Val} :
    Holds (.dict kvs) (k :: p) w ↔ ∃ x, dlookup k kvs = some x ∧ Holds x p w := by
  constructor
  · intro h
    cases h with
    | into hm hx => exact ⟨_, dlookup_of_mem hn hm, hx⟩
  · rintro ⟨x, h, hx⟩; exact .into (dlookup_mem h) hx

theorem holds_nil {v w : Val} : Holds v [] w ↔ w = v := by
  constructor
  · intro h; cases h; rfl
  · rintro rfl; exact .here _

theorem holds_leaf {v w : Val} (hv : IsLeaf v) {p : List Key} : Holds v p w ↔ p = [] ∧ w = v := by
  constructor
  · intro h
    cases h with
    | here => exact ⟨rfl, rfl⟩
    | into => exact absurd rfl (hv _)
  · rintro ⟨rfl, rfl⟩; exact .here _

theorem wf_dict_nodup {kvs : List (Key × Val)} (h : (Val.dict kvs).WF) : (kvs.map Prod.fst).Nodup := by rw [Val.WF] at h; exact h.1

theorem wf_dict_child {kvs : List (Key × Val)} (h : (Val.dict kvs).WF) {k : Key} {x : Val} (hx : dlookup k kvs = some x) : x.WF := by
  rw [Val.WF] at h; exact wfDict_mem h.2 _ (dlookup_mem hx)

theorem dset_wf {kvs : List (Key × Val)} (h : (Val.dict kvs).WF) {k : Key} {x : Val} (hx : x.WF) : (Val.dict (dset k x kvs)).WF := by
  rw [Val.WF] at h ⊢
  refine ⟨dset_nodup _ _ h.1, ?_⟩
  have main : ∀ {l : List (Key × Val)}, Val.WFDict l → Val.WFDict (dset k x l) := by
    intro l
    induction l with
    | nil => intro _; simp only [dset, Val.WFDict]; exact ⟨hx, trivial⟩
    | cons kv l ih =>
      obtain ⟨a, b⟩ := kv
      intro h
      simp only [Val.WFDict] at h
      unfold dset
      split
      · simp only [Val.WFDict]; exact ⟨hx, h.2⟩
      · simp only [Val.WFDict]; exact ⟨h.1, ih h.2⟩
  exact main h.2

theorem hasParent_cons {d : Val} {k k' : Key} {p : List Key} : HasParent d (k :: k' :: p) ↔ ∃ kvs x, d = .dict kvs ∧ (k, x) ∈ kvs ∧ HasParent x (k' :: p) := by
  constructor
  · rintro ⟨q, l, kvs, e, h⟩
    cases q with
    | nil => simp at e
    | cons a q =>
      simp only [List.cons_append, List.cons.injEq] at e
      obtain ⟨rfl, e⟩ := e
      generalize hg : Val.dict kvs = w at h
      cases h with
      | into hm hx => subst hg; exact ⟨_, _, rfl, hm, q, l, kvs, e, hx⟩
  · rintro ⟨kvs, x, rfl, hm, q, l, kvs', e, h⟩
    exact ⟨k :: q, l, kvs', by rw [e]; rfl, .into hm h⟩

theorem hasMember_cons {d : Val} {k k' : Key} {p : List Key} : HasMember d (k :: k' :: p) ↔ ∃ kvs x, d = .dict kvs ∧ (k, x) ∈ kvs ∧ HasMember x (k' :: p) := by
  constructor
  · rintro ⟨q, l, kvs, y, e, h, hy⟩
    cases q with
    | nil => simp at e
    | cons a q =>
      simp only [List.cons_append, List.cons.injEq] at e
      obtain ⟨rfl, e⟩ := e
      generalize hg : Val.dict kvs = w at h
      cases h with
      | into hm hx => subst hg; exact ⟨_, _, rfl, hm, q, l, kvs, y, e, hx, hy⟩
  · rintro ⟨kvs, x, rfl, hm, q, l, kvs', y, e, h, hy⟩
    exact ⟨k :: q, l, kvs', y, by rw [e]; rfl, .into hm h, hy⟩

theorem hasParent_one {d : Val} {k : Key} : HasParent d [k] ↔ ∃ kvs, d = .dict kvs := by
  constructor
  · rintro ⟨q, l, kvs, e, h⟩
    cases q with
    | nil => exact ⟨kvs, (holds_nil.1 h).symm⟩
    | cons a q => simp at e
  · rintro ⟨kvs, rfl⟩; exact ⟨[], k, kvs, rfl, .here _⟩

theorem hasMember_one {d : Val} {k : Key} : HasMember d [k] ↔ ∃ kvs x, d = .dict kvs ∧ (k, x) ∈ kvs := by
  constructor
  · rintro ⟨q, l, kvs, x, e, h, hx⟩
    cases q with
    | nil => cases e; exact ⟨kvs, x, (holds_nil.1 h).symm, hx⟩
    | cons a q => simp at e
  · rintro ⟨kvs, x, rfl, hx⟩; exact ⟨[], k, kvs, x, rfl, .here _, hx⟩

/-- whether `add` (`false`) or `replace` (`true`) finds its place -/
def PutFits (must : Bool) (d : Val) (p : List Key) : Prop := p = [] ∨ (if must then HasMember d p else HasParent d p)

theorem putAt_spec (must : Bool) (v : Val) : ∀ (p : List Key) (d : Val), d.WF → v.WF →
    (putAt must v p d = none ∧ ¬ PutFits must d p) ∨
    (∃ r, putAt must v p d = some r ∧ r.WF ∧ PutFits must d p ∧
      ∀ q w, IsLeaf w → (Holds r q w ↔ (∃ s, q = p ++ s ∧ Holds v s w) ∨ (¬ p <+: q ∧ Holds d q w)))
  | [], d, _, hv => by
    refine .inr ⟨v, rfl, hv, .inl rfl, ?_⟩
    intro q w _
    simp
  | [k], .dict kvs, hd, hv => by
    simp only [putAt]
    split
    · rename_i hm
      refine .inl ⟨rfl, ?_⟩
      simp only [Bool.and_eq_true, Bool.not_eq_true'] at hm
      rintro (h | h)
      · cases h
      · rw [if_pos hm.1, hasMember_one] at h
        obtain ⟨kvs', x, e, hx⟩ := h
        cases e
        have : dhas k kvs = true := dhas_iff.2 (List.mem_map_of_mem hx)
        rw [hm.2] at this; cases this
    · rename_i hm
      refine .inr ⟨_, rfl, dset_wf hd hv, .inr ?_, ?_⟩
      · simp only [Bool.and_eq_true, Bool.not_eq_true', not_and, Bool.not_eq_false] at hm
        split
        · rename_i hmust
          obtain ⟨⟨k', x⟩, hx, e⟩ := List.mem_map.1 (dhas_iff.1 (hm hmust))
          cases e
          exact hasMember_one.2 ⟨kvs, x, rfl, hx⟩
        · exact hasParent_one.2 ⟨kvs, rfl⟩
      · intro q w hw
        cases q with
        | nil =>
          rw [holds_nil]
          constructor
          · rintro rfl; exact absurd rfl (hw _)
          · rintro (⟨s, e, -⟩ | ⟨-, h⟩)
            · cases e
            · rw [holds_nil] at h; exact absurd h (hw _)
        | cons a q =>
          rw [holds_cons (wf_dict_nodup (dset_wf hd hv)), dlookup_dset, holds_cons (wf_dict_nodup hd)]
          by_cases ha : k = a
          · subst ha
            simp only [if_true, Option.some.injEq, exists_eq_left', List.singleton_append, List.cons.injEq, true_and]
            simp
          · simp only [if_neg ha, List.singleton_append, List.cons.injEq]
            constructor
            · intro h
              refine .inr ⟨?_, h⟩
              rintro ⟨t, e⟩
              cases e; exact ha rfl
            · rintro (⟨s, ⟨e, -⟩, -⟩ | ⟨-, h⟩)
              · exact absurd e.symm ha
              · exact h
  | k :: k' :: rest, .dict kvs, hd, hv => by
    have hn := wf_dict_nodup hd
    have hfit : ∀ x, dlookup k kvs = some x → (PutFits must (.dict kvs) (k :: k' :: rest) ↔ PutFits must x (k' :: rest)) := by
      intro x hx
      unfold PutFits
      simp only [reduceCtorEq, false_or]
      split
      · rw [hasMember_cons]
        constructor
        · rintro ⟨kvs', y, e, hy, h⟩
          cases e
          rw [dlookup_of_mem hn hy] at hx
          cases hx; exact h
        · intro h; exact ⟨kvs, x, rfl, dlookup_mem hx, h⟩
      · rw [hasParent_cons]
        constructor
        · rintro ⟨kvs', y, e, hy, h⟩
          cases e
          rw [dlookup_of_mem hn hy] at hx
          cases hx; exact h
        · intro h; exact ⟨kvs, x, rfl, dlookup_mem hx, h⟩
    simp only [putAt]
    cases hk : dlookup k kvs with
    | none =>
      refine .inl ⟨rfl, ?_⟩
      rintro (h | h)
      · cases h
      · have hno : ∀ x, (k, x) ∉ kvs := by
          intro x hx
          rw [dlookup_of_mem hn hx] at hk; cases hk
        split at h
        · obtain ⟨kvs', y, e, hy, -⟩ := hasMember_cons.1 h
          cases e; exact hno y hy
        · obtain ⟨kvs', y, e, hy, -⟩ := hasParent_cons.1 h
          cases e; exact hno y hy
    | some x =>
      have hxw := wf_dict_child hd hk
      dsimp only
      rcases putAt_spec must v (k' :: rest) x hxw hv with ⟨hnone, hnf⟩ | ⟨y, hy, hyw, hf, hh⟩
      · rw [hnone]
        exact .inl ⟨rfl, fun h => hnf ((hfit x hk).1 h)⟩
      · rw [hy]
        refine .inr ⟨_, rfl, dset_wf hd hyw, (hfit x hk).2 hf, ?_⟩
        intro q w hw
        cases q with
        | nil =>
          rw [holds_nil]
          constructor
          · rintro rfl; exact absurd rfl (hw _)
          · rintro (⟨s, e, -⟩ | ⟨-, h⟩)
            · cases e
            · rw [holds_nil] at h; exact absurd h (hw _)
        | cons a q =>
          rw [holds_cons (wf_dict_nodup (dset_wf hd hyw)), dlookup_dset, holds_cons hn]
          by_cases ha : k = a
          · subst ha
            simp only [if_true, Option.some.injEq, exists_eq_left', hk, hh q w hw, List.cons_append, List.cons.injEq, true_and, List.cons_prefix_cons]
          · simp only [if_neg ha, List.cons_append, List.cons.injEq, List.cons_prefix_cons]
            constructor
            · intro h; exact .inr ⟨fun e => ha e.1, h⟩
            · rintro (⟨s, ⟨e, -⟩, -⟩ | ⟨-, h⟩)
              · exact absurd e.symm ha
              · exact h
  | k :: rest, .none, _, _ => by exact .inl (putAt_odd must v k rest _ (fun _ h => nomatch h))
  | k :: rest, .bool _, _, _ => by exact .inl (putAt_odd must v k rest _ (fun _ h => nomatch h))
  | k :: rest, .int _, _, _ => by exact .inl (putAt_odd must v k rest _ (fun _ h => nomatch h))
  | k :: rest, .flt _, _, _ => by exact .inl (putAt_odd must v k rest _ (fun _ h => nomatch h))
  | k :: rest, .str _, _, _ => by exact .inl (putAt_odd must v k rest _ (fun _ h => nomatch h))
  | k :: rest, .list _, _, _ => by exact .inl (putAt_odd must v k rest _ (fun _ h => nomatch h))
where
  putAt_odd (must : Bool) (v : Val) (k : Key) (rest : List Key) (d : Val) (h : IsLeaf d) : putAt must v (k :: rest) d = none ∧ ¬ PutFits must d (k :: rest) := by
    constructor
    · cases d with
      | dict kvs => exact absurd rfl (h kvs)
      | _ => cases rest <;> rfl
    · rintro (e | hf)
      · cases e
      · cases rest with
        | nil =>
          split at hf
          · obtain ⟨kvs, x, e, -⟩ := hasMember_one.1 hf; exact h _ e
          · obtain ⟨kvs, e⟩ := hasParent_one.1 hf; exact h _ e
        | cons k' rest =>
          split at hf
          · obtain ⟨kvs, x, e, -⟩ := hasMember_cons.1 hf; exact h _ e
          · obtain ⟨kvs, x, e, -⟩ := hasParent_cons.1 hf; exact h _ e

theorem removeAt_spec : ∀ (p : List Key) (d : Val), d.WF →
    (removeAt p d = none ∧ ¬ HasMember d p) ∨
    (∃ r, removeAt p d = some r ∧ r.WF ∧ HasMember d p ∧ ∀ q w, IsLeaf w → (Holds r q w ↔ ¬ p <+: q ∧ Holds d q w))
  | [], d, _ => by
    refine .inl ⟨by simp [removeAt], ?_⟩
    rintro ⟨q, k, kvs, x, e, -⟩
    simp at e
  | [k], .dict kvs, hd => by
    have hn := wf_dict_nodup hd
    simp only [removeAt]
    split
    · rename_i hm
      obtain ⟨⟨k', x⟩, hx, e⟩ := List.mem_map.1 (dhas_iff.1 hm)
      cases e
      refine .inr ⟨_, rfl, ddel_wf hd, hasMember_one.2 ⟨kvs, x, rfl, hx⟩, ?_⟩
      intro q w hw
      cases q with
      | nil =>
        rw [holds_nil, holds_nil]
        constructor
        · rintro rfl; exact absurd rfl (hw _)
        · rintro ⟨-, rfl⟩; exact absurd rfl (hw _)
      | cons a q =>
        rw [holds_cons (wf_dict_nodup (ddel_wf hd)), dlookup_ddel _ _ hn, holds_cons hn]
        by_cases ha : k' = a
        · subst ha
          simp
        · simp only [List.cons_prefix_cons, ha, if_false, false_and, not_false_eq_true, true_and]
    · rename_i hm
      refine .inl ⟨rfl, fun h => hm ?_⟩
      obtain ⟨kvs', x, e, hx⟩ := hasMember_one.1 h
      cases e
      exact dhas_iff.2 (List.mem_map_of_mem hx)
  | k :: k' :: rest, .dict kvs, hd => by
    have hn := wf_dict_nodup hd
    have hfit : ∀ x, dlookup k kvs = some x → (HasMember (.dict kvs) (k :: k' :: rest) ↔ HasMember x (k' :: rest)) := by
      intro x hx
      rw [hasMember_cons]
      constructor
      · rintro ⟨kvs', y, e, hy, h⟩
        cases e
        rw [dlookup_of_mem hn hy] at hx
        cases hx; exact h
      · intro h; exact ⟨kvs, x, rfl, dlookup_mem hx, h⟩
    simp only [removeAt]
    cases hk : dlookup k kvs with
    | none =>
      refine .inl ⟨rfl, fun h => ?_⟩
      obtain ⟨kvs', y, e, hy, -⟩ := hasMember_cons.1 h
      cases e
      rw [dlookup_of_mem hn hy] at hk; cases hk
    | some x =>
      have hxw := wf_dict_child hd hk
      dsimp only
      rcases removeAt_spec (k' :: rest) x hxw with ⟨hnone, hnf⟩ | ⟨y, hy, hyw, hf, hh⟩
      · rw [hnone]
        exact .inl ⟨rfl, fun h => hnf ((hfit x hk).1 h)⟩
      · rw [hy]
        refine .inr ⟨_, rfl, dset_wf hd hyw, (hfit x hk).2 hf, ?_⟩
        intro q w hw
        cases q with
        | nil =>
          rw [holds_nil, holds_nil]
          constructor
          · rintro rfl; exact absurd rfl (hw _)
          · rintro ⟨-, rfl⟩; exact absurd rfl (hw _)
        | cons a q =>
          rw [holds_cons (wf_dict_nodup (dset_wf hd hyw)), dlookup_dset, holds_cons hn]
          by_cases ha : k = a
          · subst ha
            simp only [if_true, Option.some.injEq, exists_eq_left', hk, hh q w hw, true_and, List.cons_prefix_cons]
          · simp only [List.cons_prefix_cons, ha, if_false, false_and, not_false_eq_true, true_and]
  | k :: rest, .none, _ => by exact .inl (removeAt_odd k rest _ (fun _ h => nomatch h))
  | k :: rest, .bool _, _ => by exact .inl (removeAt_odd k rest _ (fun _ h => nomatch h))
  | k :: rest, .int _, _ => by exact .inl (removeAt_odd k rest _ (fun _ h => nomatch h))
  | k :: rest, .flt _, _ => by exact .inl (removeAt_odd k rest _ (fun _ h => nomatch h))
  | k :: rest, .str _, _ => by exact .inl (removeAt_odd k rest _ (fun _ h => nomatch h))
  | k :: rest, .list _, _ => by exact .inl (removeAt_odd k rest _ (fun _ h => nomatch h))
where
  removeAt_odd (k : Key) (rest : List Key) (d : Val) (h : IsLeaf d) : removeAt (k :: rest) d = none ∧ ¬ HasMember d (k :: rest) := by
    constructor
    · cases d with
      | dict kvs => exact absurd rfl (h kvs)
      | _ => cases rest <;> rfl
    · intro hf
      cases rest with
      | nil => obtain ⟨kvs, x, e, -⟩ := hasMember_one.1 hf; exact h _ e
      | cons k' rest => obtain ⟨kvs, x, e, -⟩ := hasMember_cons.1 hf; exact h _ e

/-- the value of a patch is a JSON value -/
def PatchWF : Patch → Prop
  | .add _ v => v.WF
  | .remove _ => True
  | .replace _ v => v.WF

theorem applyPatch_spec (op : Patch) (hop : PatchWF op) (d : Val) (hd : d.WF) :
    (applyPatch op d = none ∧ ¬ PatchFits d op) ∨
    (∃ r, applyPatch op d = some r ∧ r.WF ∧ PatchFits d op ∧
      ∀ q w, IsLeaf w → (Holds r q w ↔ Puts op q w ∨ (¬ patchPath op <+: q ∧ Holds d q w))) := by
  cases op with
  | add p v =>
    rcases putAt_spec false v p d hd hop with ⟨h1, h2⟩ | ⟨r, h1, h2, h3, h4⟩
    · exact .inl ⟨h1, fun h => h2 (by simpa [PutFits, PatchFits] using h)⟩
    · exact .inr ⟨r, h1, h2, by simpa [PutFits, PatchFits] using h3, h4⟩
  | replace p v =>
    rcases putAt_spec true v p d hd hop with ⟨h1, h2⟩ | ⟨r, h1, h2, h3, h4⟩
    · exact .inl ⟨h1, fun h => h2 (by simpa [PutFits, PatchFits] using h)⟩
    · exact .inr ⟨r, h1, h2, by simpa [PutFits, PatchFits] using h3, h4⟩
  | remove p =>
    rcases removeAt_spec p d hd with ⟨h1, h2⟩ | ⟨r, h1, h2, h3, h4⟩
    · exact .inl ⟨h1, h2⟩
    · exact .inr ⟨r, h1, h2, h3, by simpa [Puts, patchPath] using h4⟩

/-- **C126** (one patch). A patch that fits puts its value at its place, or takes away what is there, and changes nothing anywhere else; one that does not fit changes
nothing at all. -/
theorem C126_patch (op : Patch) (hop : PatchWF op) (d : Val) (hd : d.WF) :
    (¬ PatchFits d op → applyPatches [op] d = d) ∧
    (PatchFits d op → ∀ q w, IsLeaf w → (Holds (applyPatches [op] d) q w ↔ Puts op q w ∨ (¬ patchPath op <+: q ∧ Holds d q w))) := by
  unfold applyPatches
  simp only [List.foldl_cons, List.foldl_nil]
  rcases applyPatch_spec op hop d hd with ⟨h1, h2⟩ | ⟨r, h1, h2, h3, h4⟩
  · rw [h1]
    exact ⟨fun _ => rfl, fun h => absurd h h2⟩
  · rw [h1]
    exact ⟨fun h => absurd h3 h, fun _ => h4⟩

theorem applyPatches_wf (ops : List Patch) (hops : ∀ op ∈ ops, PatchWF op) : ∀ (d : Val), d.WF → (applyPatches ops d).WF := by
  induction ops with
  | nil => intro d hd; exact hd
  | cons op ops ih =>
    intro d hd
    unfold applyPatches
    rw [List.foldl_cons]
    refine ih (fun o ho => hops o (List.mem_cons_of_mem _ ho)) _ ?_
    rcases applyPatch_spec op (hops op List.mem_cons_self) d hd with ⟨h1, -⟩ | ⟨r, h1, h2, -⟩
    · rw [h1]; exact hd
    · rw [h1]; exact h2

theorem applyPatches_append (l1 l2 : List Patch) (d : Val) : applyPatches (l1 ++ l2) d = applyPatches l2 (applyPatches l1 d) := by
  unfold applyPatches; rw [List.foldl_append]

/-- **C126** (skipped patches). A patch that does not fit what the patches before it left is skipped, and the patches after it are applied as if it were not there. -/
theorem C126_skipped (l1 l2 : List Patch) (op : Patch) (hops : ∀ o ∈ l1, PatchWF o) (hop : PatchWF op) (d : Val) (hd : d.WF)
    (h : ¬ PatchFits (applyPatches l1 d) op) : applyPatches (l1 ++ op :: l2) d = applyPatches (l1 ++ l2) d := by
  rw [applyPatches_append, applyPatches_append, show op :: l2 = [op] ++ l2 from rfl, applyPatches_append, (C126_patch op hop _ (applyPatches_wf l1 hops d hd)).1 h]

/-- **C126** (untouched places). What no patch has a place at, above or below, is what it was. -/
theorem C126_untouched (ops : List Patch) (hops : ∀ op ∈ ops, PatchWF op) (q : List Key) (w : Val) (hw : IsLeaf w)
    (h : ∀ op ∈ ops, ¬ patchPath op <+: q) : ∀ (d : Val), d.WF → (Holds (applyPatches ops d) q w ↔ Holds d q w) := by
  induction ops with
  | nil => intro d _; exact Iff.rfl
  | cons op ops ih =>
    intro d hd
    have hnp := h op List.mem_cons_self
    have hput : ¬ Puts op q w := by
      intro hp
      cases op with
      | add p v => obtain ⟨r, rfl, -⟩ := hp; exact hnp ⟨r, rfl⟩
      | remove p => exact hp
      | replace p v => obtain ⟨r, rfl, -⟩ := hp; exact hnp ⟨r, rfl⟩
    rw [show op :: ops = [op] ++ ops from rfl, applyPatches_append,
      ih (fun o ho => hops o (List.mem_cons_of_mem _ ho)) (fun o ho => h o (List.mem_cons_of_mem _ ho)) _
        (applyPatches_wf [op] (by simpa using hops op List.mem_cons_self) d hd)]
    obtain ⟨h1, h2⟩ := C126_patch op (hops op List.mem_cons_self) d hd
    by_cases hf : PatchFits d op
    · rw [h2 hf q w hw]
      simp [hput, hnp]
    · rw [h1 hf]

/-- **C126** (the last word). What the last patch of a list puts at its place is there in the end, if it fits. -/
theorem C126_last (ops : List Patch) (op : Patch) (hops : ∀ o ∈ ops, PatchWF o) (hop : PatchWF op) (d : Val) (hd : d.WF)
    (hf : PatchFits (applyPatches ops d) op) (q : List Key) (w : Val) (hw : IsLeaf w) (hq : patchPath op <+: q) :
    Holds (applyPatches (ops ++ [op]) d) q w ↔ Puts op q w := by
  rw [applyPatches_append, (C126_patch op hop _ (applyPatches_wf ops hops d hd)).2 hf q w hw]
  simp [hq]

theorem strLe_sort_perm {l l' : List String} (h : l.Perm l') : l.mergeSort strLe = l'.mergeSort strLe := by
  refine ((List.mergeSort_perm l strLe).trans (h.trans (List.mergeSort_perm l' strLe).symm)).eq_of_pairwise (le := fun a b => strLe a b = true) ?_ ?_ ?_
  · intro a b _ _ h1 h2
    exact String.le_antisymm (of_decide_eq_true h1) (of_decide_eq_true h2)
  · exact List.pairwise_mergeSort (fun a b c => strLe_trans a b c) (fun a b => strLe_total a b) l
  · exact List.pairwise_mergeSort (fun a b c => strLe_trans a b c) (fun a b => strLe_total a b) l'

/-- **C126** (files). The order in which the system lists the files of a directory does not matter, and files that are not JSON are not looked at. -/
theorem C126_files (load : String → List Patch) (listing listing' : List String) (d : Val)
    (h : (listing.filter (fun f => ".json".toList.isSuffixOf f.toList)).Perm (listing'.filter (fun f => ".json".toList.isSuffixOf f.toList))) :
    patchSpec load listing d = patchSpec load listing' d := by
  have key : ∀ l : List String, (l.mergeSort strLe).filter (fun f => endsWith f ".json") = (l.filter (fun f => endsWith f ".json")).mergeSort strLe := by
    intro l
    refine List.Perm.eq_of_pairwise (le := fun a b => strLe a b = true) ?_ ?_ ?_ ?_
    · intro a b _ _ h1 h2
      exact String.le_antisymm (of_decide_eq_true h1) (of_decide_eq_true h2)
    · exact (List.pairwise_mergeSort (fun a b c => strLe_trans a b c) (fun a b => strLe_total a b) l).filter _
    · exact List.pairwise_mergeSort (fun a b c => strLe_trans a b c) (fun a b => strLe_total a b) _
    · exact ((List.mergeSort_perm l strLe).filter _).trans (List.mergeSort_perm _ strLe).symm
  have h' : (listing.filter (fun f => endsWith f ".json")).Perm (listing'.filter (fun f => endsWith f ".json")) := h
  unfold patchSpec
  rw [key, key, strLe_sort_perm h']

/-- **C126** (the order of the files). The patches of the JSON files of a directory are applied in the order of the names of the files. -/
theorem C126_file_order (load : String → List Patch) (listing : List String) (d : Val)
    (hs : listing.Pairwise (· ≤ ·)) (hj : ∀ f ∈ listing, ".json".toList <:+ f.toList) : patchSpec load listing d = applyPatches (listing.flatMap load) d := by
  have hsort : listing.mergeSort strLe = listing := List.mergeSort_of_pairwise (hs.imp (fun h => by simpa [strLe] using h))
  have hfil : listing.filter (fun f => endsWith f ".json") = listing := by
    rw [List.filter_eq_self]
    intro f hf
    simpa [endsWith] using hj f hf
  unfold patchSpec
  rw [hsort, hfil]
  clear hs hj hsort hfil
  induction listing generalizing d with
  | nil => rfl
  | cons f fs ih => rw [List.foldl_cons, List.flatMap_cons, applyPatches_append, ih]

/-! ### The botocore types -/

namespace Spec

/-- a botocore text: a service and a type after the last slash -/
inductive BotoName : String → String → String → Prop
  | plain {s : String} : '/' ∉ s.toList → BotoName s "" s
  | slash {svc ty : String} : '/' ∉ ty.toList → BotoName (svc ++ "/" ++ ty) svc ty

/-- the values of the type a botocore text names, in order -/
def BotoValues (shapes : String → PyM (String → PyM (List String))) (s : String) (l : List String) : Prop :=
  ∃ svc ty types l0, BotoName s svc ty ∧ shapes svc = .ok types ∧ types ty = .ok l0 ∧ l.Perm l0 ∧ l.Pairwise (· ≤ ·)

/-- no object has both a botocore type and allowed values -/
def BotoExclusive (v : Val) : Prop :=
  ∀ p kvs, At v p (.dict kvs) → ¬ (Key.str "botocore" ∈ kvs.map Prod.fst ∧ Key.str "AllowedValues" ∈ kvs.map Prod.fst)

/-- a value with nothing inside -/
def Tip (v : Val) : Prop := (∀ kv kvs, v ≠ .dict (kv :: kvs)) ∧ ∀ x xs, v ≠ .list (x :: xs)

end Spec

theorem serviceAndType_spec (s : String) : BotoName s (serviceAndType s).1 (serviceAndType s).2 := by
  have hsplit : s.toList = (s.toList.reverse.dropWhile (fun c => c != '/')).reverse ++ (s.toList.reverse.takeWhile (fun c => c != '/')).reverse := by
    rw [← List.reverse_append, List.takeWhile_append_dropWhile, List.reverse_reverse]
  have hno : '/' ∉ (s.toList.reverse.takeWhile (fun c => c != '/')).reverse := by
    rw [List.mem_reverse]
    intro h
    have hall : ∀ l : List Char, '/' ∉ l.takeWhile (fun c => c != '/') := by
      intro l
      induction l with
      | nil => simp
      | cons c l ih =>
        by_cases hc : c = '/'
        · simp [hc]
        · rw [List.takeWhile_cons_of_pos (by simpa using hc)]
          simp only [List.mem_cons, not_or]
          exact ⟨fun e => hc e.symm, ih⟩
    exact hall _ h
  cases hd : s.toList.reverse.dropWhile (fun c => c != '/') with
  | nil =>
    rw [hd] at hsplit
    simp only [List.reverse_nil, List.nil_append] at hsplit
    have h2 : (serviceAndType s).2 = s := by
      unfold serviceAndType
      rw [← hsplit]; simp
    have h1 : (serviceAndType s).1 = "" := by
      unfold serviceAndType
      rw [hd]; rfl
    rw [h1, h2]
    exact .plain (by rw [hsplit]; exact hno)
  | cons c cs =>
    have hc : c = '/' := by
      have := List.head_dropWhile_not (fun c => c != '/') (l := s.toList.reverse) (by rw [hd]; simp)
      simp only [hd, List.head_cons] at this
      simpa using this
    subst hc
    rw [hd] at hsplit
    have hs : s = (serviceAndType s).1 ++ "/" ++ (serviceAndType s).2 := by
      apply String.toList_inj.1
      rw [hsplit]
      unfold serviceAndType
      rw [hd]
      simp
    have := BotoName.slash (svc := (serviceAndType s).1) (ty := (serviceAndType s).2) (by unfold serviceAndType; simpa using hno)
    rwa [← hs] at this

theorem botoName_det {s svc ty svc' ty' : String} (h : BotoName s svc ty) (h' : BotoName s svc' ty') : svc = svc' ∧ ty = ty' := by
  have aux : ∀ {a b c d : List Char}, '/' ∉ b → '/' ∉ d → a ++ '/' :: b = c ++ '/' :: d → a = c ∧ b = d := by
    intro a
    induction a with
    | nil =>
      intro b c d hb hd e
      cases c with
      | nil => simpa using e
      | cons x c =>
        simp only [List.nil_append, List.cons_append, List.cons.injEq] at e
        exact absurd (by rw [e.2]; simp) hb
    | cons y a ih =>
      intro b c d hb hd e
      cases c with
      | nil =>
        simp only [List.nil_append, List.cons_append, List.cons.injEq] at e
        exact absurd (by rw [← e.2]; simp) hd
      | cons x c =>
        simp only [List.cons_append, List.cons.injEq] at e
        obtain ⟨h1, h2⟩ := ih hb hd e.2
        exact ⟨by rw [e.1, h1], h2⟩
  cases h with
  | plain hn =>
    generalize hg : s = s' at h'
    cases h' with
    | plain => exact ⟨rfl, rfl⟩
    | slash => exact absurd (by rw [hg]; simp) hn
  | slash hn =>
    generalize hg : svc ++ "/" ++ ty = s' at h'
    cases h' with
    | plain hn' => exact absurd (by rw [← hg]; simp) hn'
    | slash hn' =>
      have e := congrArg String.toList hg
      simp only [String.toList_append] at e
      have e' : svc.toList ++ '/' :: ty.toList = svc'.toList ++ '/' :: ty'.toList := by
        have h1 : "/".toList = ['/'] := rfl
        rw [h1] at e
        simpa using e
      obtain ⟨h1, h2⟩ := aux hn hn' e'
      exact ⟨String.toList_inj.1 h1, String.toList_inj.1 h2⟩

theorem botocoreValues_spec (shapes : String → PyM (String → PyM (List String))) (v : Val) :
    (∃ s l, v = .str s ∧ BotoValues shapes s l ∧ botocoreValues shapes v = .ok (.list (l.map Val.str))) ∨
    ((∃ e, botocoreValues shapes v = .error e) ∧ ¬ ∃ s l, v = .str s ∧ BotoValues shapes s l) := by
  cases v with
  | str s =>
    simp only [botocoreValues]
    cases h1 : shapes (serviceAndType s).1 with
    | error e =>
      refine .inr ⟨⟨e, rfl⟩, ?_⟩
      rintro ⟨s', l, e', svc, ty, types, l0, hb, h2, -⟩
      cases e'
      obtain ⟨rfl, rfl⟩ := botoName_det hb (serviceAndType_spec s)
      rw [h1] at h2; cases h2
    | ok types =>
      dsimp only
      cases h2 : types (serviceAndType s).2 with
      | error e =>
        refine .inr ⟨⟨e, rfl⟩, ?_⟩
        rintro ⟨s', l, e', svc, ty, types', l0, hb, h3, h4, -⟩
        cases e'
        obtain ⟨rfl, rfl⟩ := botoName_det hb (serviceAndType_spec s)
        rw [h1] at h3; cases h3
        rw [h2] at h4; cases h4
      | ok l =>
        refine .inl ⟨s, l.mergeSort strLe, rfl, ⟨_, _, types, l, serviceAndType_spec s, h1, h2, List.mergeSort_perm l strLe, ?_⟩, rfl⟩
        have := List.pairwise_mergeSort (le := strLe) (fun a b c => strLe_trans a b c) (fun a b => strLe_total a b) l
        exact this.imp (fun h => of_decide_eq_true h)
  | _ => exact .inr ⟨⟨_, rfl⟩, by rintro ⟨s, l, e, -⟩; cases e⟩

theorem botoValues_det {shapes : String → PyM (String → PyM (List String))} {s : String} {l l' : List String} (h : BotoValues shapes s l) (h' : BotoValues shapes s l') : l = l' := by
  obtain ⟨svc, ty, types, l0, hb, h1, h2, h3, h4⟩ := h
  obtain ⟨svc', ty', types', l0', hb', h1', h2', h3', h4'⟩ := h'
  obtain ⟨rfl, rfl⟩ := botoName_det hb hb'
  rw [h1] at h1'; cases h1'
  rw [h2] at h2'; cases h2'
  exact (h3.trans h3'.symm).eq_of_pairwise (fun a b _ _ h1 h2 => String.le_antisymm h1 h2) h4 h4'

/-- what an entry of an object becomes -/
def botoEntry (shapes : String → PyM (String → PyM (List String))) (kv : Key × Val) : Key × PyM Val :=
  if kv.1 = .str "botocore" then (.str "AllowedValues", botocoreValues shapes kv.2) else (kv.1, replaceBotocore shapes kv.2)

theorem dset_absent {k : Key} {v : Val} : ∀ {d : List (Key × Val)}, k ∉ d.map Prod.fst → dset k v d = d ++ [(k, v)]
  | [], _ => rfl
  | (a, b) :: d, h => by
    simp only [List.map_cons, List.mem_cons, not_or] at h
    rw [dset, if_neg (fun e => h.1 e.symm), dset_absent h.2]
    rfl

theorem replaceDict_spec (shapes : String → PyM (String → PyM (List String))) : ∀ (kvs acc d : List (Key × Val)),
    (acc.map Prod.fst ++ kvs.map (fun kv => (botoEntry shapes kv).1)).Nodup →
    (replaceBotocoreDict shapes kvs acc = .ok d ↔
      ∃ l, d = acc ++ l ∧ List.Forall₂ (fun kv kv' => kv'.1 = (botoEntry shapes kv).1 ∧ (botoEntry shapes kv).2 = .ok kv'.2) kvs l)
  | [], acc, d, _ => by
    simp only [replaceBotocoreDict, Except.ok.injEq, List.forall₂_nil_left_iff]
    constructor
    · rintro rfl; exact ⟨[], by simp, rfl⟩
    · rintro ⟨l, h, rfl⟩; simpa using h.symm
  | (k, v) :: kvs, acc, d, hn => by
    have hna : (botoEntry shapes (k, v)).1 ∉ acc.map Prod.fst := by
      intro h
      rw [List.map_cons, List.nodup_append] at hn
      exact hn.2.2 _ h _ List.mem_cons_self rfl
    have hn' : ∀ x, ((dset (botoEntry shapes (k, v)).1 x acc).map Prod.fst ++ kvs.map (fun kv => (botoEntry shapes kv).1)).Nodup := by
      intro x
      rw [dset_absent hna]
      simpa using hn
    have step : replaceBotocoreDict shapes ((k, v) :: kvs) acc = match (botoEntry shapes (k, v)).2 with
        | .error e => .error e
        | .ok x => replaceBotocoreDict shapes kvs (dset (botoEntry shapes (k, v)).1 x acc) := by
      rw [replaceBotocoreDict]
      unfold botoEntry
      dsimp only
      split
      · cases botocoreValues shapes v <;> rfl
      · cases replaceBotocore shapes v <;> rfl
    rw [step]
    cases he : (botoEntry shapes (k, v)).2 with
    | error e =>
      constructor
      · intro h; cases h
      · rintro ⟨l, -, h⟩
        rw [List.forall₂_cons_left_iff] at h
        obtain ⟨b, u, ⟨-, h⟩, -⟩ := h
        rw [he] at h; cases h
    | ok x =>
      dsimp only
      rw [replaceDict_spec shapes kvs _ d (hn' x), dset_absent hna]
      constructor
      · rintro ⟨l, rfl, h⟩
        refine ⟨((botoEntry shapes (k, v)).1, x) :: l, by simp, .cons ⟨rfl, he⟩ h⟩
      · rintro ⟨l, rfl, h⟩
        rw [List.forall₂_cons_left_iff] at h
        obtain ⟨⟨b1, b2⟩, u, ⟨h1, h2⟩, h3, rfl⟩ := h
        dsimp only at h1 h2
        subst h1
        rw [he] at h2; cases h2
        exact ⟨u, by simp, h3⟩

theorem replaceList_spec (shapes : String → PyM (String → PyM (List String))) : ∀ (xs l : List Val),
    replaceBotocoreList shapes xs = .ok l ↔ List.Forall₂ (fun x y => replaceBotocore shapes x = .ok y) xs l
  | [], l => by
    simp only [replaceBotocoreList, Except.ok.injEq, List.forall₂_nil_left_iff]
    exact eq_comm
  | x :: xs, l => by
    rw [List.forall₂_cons_left_iff, replaceBotocoreList]
    cases hx : replaceBotocore shapes x with
    | error e =>
      constructor
      · intro h; cases h
      · rintro ⟨b, u, h, -⟩; cases h
    | ok y =>
      dsimp only
      have ih := replaceList_spec shapes xs
      cases hr : replaceBotocoreList shapes xs with
      | error e =>
        constructor
        · intro h; cases h
        · rintro ⟨b, u, -, h, -⟩
          rw [← ih, hr] at h; cases h
      | ok r =>
        dsimp only
        constructor
        · intro h; cases h; exact ⟨y, r, rfl, (ih r).1 hr, rfl⟩
        · rintro ⟨b, u, hb, h, rfl⟩
          cases hb
          rw [← ih, hr] at h; cases h; rfl

namespace Spec

/-- what replacing keeps: what is not below a botocore type -/
def BotoKept (v : Val) (p : Path) (w : Val) : Prop := At v p w ∧ Key.str "botocore" ∉ p

/-- what replacing puts in: the allowed values in the place of a botocore type -/
def BotoListed (shapes : String → PyM (String → PyM (List String))) (v : Val) (p : Path) (w : Val) : Prop :=
  ∃ q s r l, p = q ++ .str "AllowedValues" :: r ∧ At v (q ++ [.str "botocore"]) (.str s) ∧ Key.str "botocore" ∉ q ∧ BotoValues shapes s l ∧
    At (.list (l.map Val.str)) r w

end Spec

theorem boto_exclusive_child {kvs : List (Key × Val)} (h : BotoExclusive (.dict kvs)) {kv : Key × Val} (hk : kv ∈ kvs) : BotoExclusive kv.2 :=
  fun p kvs' hat => h (kv.1 :: p) kvs' (.key hk hat)

theorem boto_exclusive_item {xs : List Val} (h : BotoExclusive (.list xs)) {x : Val} (hx : x ∈ xs) : BotoExclusive x := by
  intro p kvs' hat
  obtain ⟨n, hn, rfl⟩ := List.mem_iff_getElem.1 hx
  exact h (.int n :: p) kvs' (.idx (List.getElem?_eq_getElem hn) hat)

theorem boto_targets_nodup {shapes : String → PyM (String → PyM (List String))} {kvs : List (Key × Val)} (hn : (kvs.map Prod.fst).Nodup)
    (he : ¬ (Key.str "botocore" ∈ kvs.map Prod.fst ∧ Key.str "AllowedValues" ∈ kvs.map Prod.fst)) :
    (kvs.map (fun kv => (botoEntry shapes kv).1)).Nodup := by
  have : kvs.map (fun kv => (botoEntry shapes kv).1) = (kvs.map Prod.fst).map (fun k => if k = .str "botocore" then .str "AllowedValues" else k) := by
    rw [List.map_map]
    apply List.map_congr_left
    intro kv _
    simp only [botoEntry, Function.comp]
    split <;> rfl
  rw [this]
  refine List.Nodup.map_on ?_ hn
  intro a ha b hb e
  split at e
  · rename_i h1
    subst h1
    split at e
    · rename_i h2; exact h2.symm
    · subst e; exact absurd ⟨ha, hb⟩ he
  · split at e
    · rename_i h2
      subst h2; subst e; exact absurd ⟨hb, ha⟩ he
    · exact e

theorem kept_cons {kvs : List (Key × Val)} {k : Key} {p : Path} {w : Val} :
    BotoKept (.dict kvs) (k :: p) w ↔ k ≠ .str "botocore" ∧ ∃ x, (k, x) ∈ kvs ∧ BotoKept x p w := by
  unfold BotoKept
  constructor
  · rintro ⟨h, hn⟩
    simp only [List.mem_cons, not_or] at hn
    cases h with
    | key hm hx => exact ⟨fun e => hn.1 e.symm, _, hm, hx, hn.2⟩
  · rintro ⟨hk, x, hm, hx, hn⟩
    refine ⟨.key hm hx, ?_⟩
    simp only [List.mem_cons, not_or]
    exact ⟨fun e => hk e.symm, hn⟩

theorem listed_cons {shapes : String → PyM (String → PyM (List String))} {kvs : List (Key × Val)} {k : Key} {p : Path} {w : Val} :
    BotoListed shapes (.dict kvs) (k :: p) w ↔
      (k = .str "AllowedValues" ∧ ∃ s l, (Key.str "botocore", Val.str s) ∈ kvs ∧ BotoValues shapes s l ∧ At (.list (l.map Val.str)) p w) ∨
      (k ≠ .str "botocore" ∧ ∃ x, (k, x) ∈ kvs ∧ BotoListed shapes x p w) := by
  unfold BotoListed
  constructor
  · rintro ⟨q, s, r, l, e, hat, hq, hv, hl⟩
    cases q with
    | nil =>
      simp only [List.nil_append, List.cons.injEq] at e hat
      obtain ⟨rfl, rfl⟩ := e
      generalize hg : Val.str s = u at hat
      cases hat with
      | key hm hx =>
        subst hg
        rw [at_nil] at hx
        subst hx
        exact .inl ⟨rfl, s, l, hm, hv, hl⟩
    | cons a q =>
      simp only [List.cons_append, List.cons.injEq] at e hat
      simp only [List.mem_cons, not_or] at hq
      obtain ⟨rfl, rfl⟩ := e
      cases hat with
      | key hm hx => exact .inr ⟨fun e => hq.1 e.symm, _, hm, q, s, r, l, rfl, hx, hq.2, hv, hl⟩
  · rintro (⟨rfl, s, l, hm, hv, hl⟩ | ⟨hk, x, hm, q, s, r, l, rfl, hat, hq, hv, hl⟩)
    · exact ⟨[], s, p, l, rfl, .key hm .here, by simp, hv, hl⟩
    · refine ⟨k :: q, s, r, l, rfl, .key hm hat, ?_, hv, hl⟩
      simp only [List.mem_cons, not_or]
      exact ⟨fun e => hk e.symm, hq⟩

theorem listed_nil {shapes : String → PyM (String → PyM (List String))} {v w : Val} : ¬ BotoListed shapes v [] w := by
  rintro ⟨q, s, r, l, e, -⟩
  simp at e

theorem kept_item {xs : List Val} {k : Key} {p : Path} {w : Val} :
    BotoKept (.list xs) (k :: p) w ↔ ∃ (i : Nat) (x : Val), k = .int i ∧ xs[i]? = some x ∧ BotoKept x p w := by
  unfold BotoKept
  constructor
  · rintro ⟨h, hn⟩
    simp only [List.mem_cons, not_or] at hn
    cases h with
    | idx hm hx => exact ⟨_, _, rfl, hm, hx, hn.2⟩
  · rintro ⟨i, x, rfl, hm, hx, hn⟩
    exact ⟨.idx hm hx, by simpa using hn⟩

theorem listed_item {shapes : String → PyM (String → PyM (List String))} {xs : List Val} {k : Key} {p : Path} {w : Val} :
    BotoListed shapes (.list xs) (k :: p) w ↔ ∃ (i : Nat) (x : Val), k = .int i ∧ xs[i]? = some x ∧ BotoListed shapes x p w := by
  unfold BotoListed
  constructor
  · rintro ⟨q, s, r, l, e, hat, hq, hv, hl⟩
    cases q with
    | nil => simp only [List.nil_append] at hat; cases hat
    | cons a q =>
      simp only [List.cons_append, List.cons.injEq] at e hat
      simp only [List.mem_cons, not_or] at hq
      obtain ⟨rfl, rfl⟩ := e
      cases hat with
      | idx hm hx => exact ⟨_, _, rfl, hm, q, s, r, l, rfl, hx, hq.2, hv, hl⟩
  · rintro ⟨i, x, rfl, hm, q, s, r, l, rfl, hat, hq, hv, hl⟩
    exact ⟨.int i :: q, s, r, l, rfl, .idx hm hat, by simpa using hq, hv, hl⟩

theorem boto_scalar {shapes : String → PyM (String → PyM (List String))} {v r : Val} (h1 : ∀ d, v ≠ .dict d) (h2 : ∀ l, v ≠ .list l) (h : replaceBotocore shapes v = .ok r)
    {p : Path} {w : Val} : At r p w ↔ BotoKept v p w ∨ BotoListed shapes v p w := by
  have hr : r = v := by
    cases v with
    | dict d => exact absurd rfl (h1 d)
    | list l => exact absurd rfl (h2 l)
    | _ => rw [replaceBotocore] at h <;> first | (cases h; rfl) | (intro _ e; cases e)
  subst hr
  have hat : ∀ q u, At r q u → q = [] := by
    intro q u h
    cases h with
    | here => rfl
    | key => exact absurd rfl (h1 _)
    | idx => exact absurd rfl (h2 _)
  constructor
  · intro h
    have := hat _ _ h
    subst this
    exact .inl ⟨h, by simp⟩
  · rintro (h | ⟨q, s, r', l, e, h, -⟩)
    · exact h.1
    · have := hat _ _ h
      simp at this

theorem boto_main (shapes : String → PyM (String → PyM (List String))) (v : Val) : v.WF → BotoExclusive v → ∀ r, replaceBotocore shapes v = .ok r →
    ∀ p w, Tip w → (At r p w ↔ BotoKept v p w ∨ BotoListed shapes v p w) := by
  induction v using Val.ind with
  | hnone => intro _ _ r h p w _; refine boto_scalar ?_ ?_ h <;> (intro _ e; cases e)
  | hbool b => intro _ _ r h p w _; refine boto_scalar ?_ ?_ h <;> (intro _ e; cases e)
  | hint b => intro _ _ r h p w _; refine boto_scalar ?_ ?_ h <;> (intro _ e; cases e)
  | hflt b => intro _ _ r h p w _; refine boto_scalar ?_ ?_ h <;> (intro _ e; cases e)
  | hstr b => intro _ _ r h p w _; refine boto_scalar ?_ ?_ h <;> (intro _ e; cases e)
  | hlist xs ih =>
    intro hw he r h p w ht
    rw [replaceBotocore] at h
    split at h
    · cases h
    · rename_i l hl
      cases h
      rw [replaceList_spec] at hl
      have hxw : ∀ x ∈ xs, x.WF := by
        rw [Val.WF] at hw
        intro x hx
        clear hl ih he
        induction xs with
        | nil => cases hx
        | cons y ys ihy =>
          simp only [Val.WFList] at hw
          rcases List.mem_cons.1 hx with rfl | hx
          · exact hw.1
          · exact ihy hw.2 hx
      cases p with
      | nil =>
        rw [at_nil]
        constructor
        · rintro rfl
          cases l with
          | nil => rw [List.forall₂_nil_right_iff] at hl; subst hl; exact .inl ⟨.here, by simp⟩
          | cons y l => exact absurd rfl (ht.2 y l)
        · rintro (⟨h, -⟩ | h)
          · rw [at_nil] at h
            subst h
            cases xs with
            | nil => rw [List.forall₂_nil_left_iff] at hl; subst hl; rfl
            | cons y ys => exact absurd rfl (ht.2 y ys)
          · exact absurd h listed_nil
      | cons k p =>
        rw [kept_item, listed_item]
        have hlen := hl.length_eq
        have hget : ∀ (i : Nat) x y, xs[i]? = some x → l[i]? = some y → replaceBotocore shapes x = .ok y := by
          intro i x y hx hy
          obtain ⟨h1, rfl⟩ := List.getElem?_eq_some_iff.1 hx
          obtain ⟨h2, rfl⟩ := List.getElem?_eq_some_iff.1 hy
          have := (List.forall₂_iff_get.1 hl).2 i h1 h2
          simpa using this
        constructor
        · intro h
          cases h with
          | @idx _ i y _ _ hy hat =>
            have hi : i < xs.length := by rw [hlen]; exact (List.getElem?_eq_some_iff.1 hy).1
            have hx : xs[i]? = some xs[i] := List.getElem?_eq_getElem hi
            have hm := List.getElem_mem hi
            rcases (ih _ hm (hxw _ hm) (boto_exclusive_item he hm) y (hget i _ y hx hy) p w ht).1 hat with h | h
            · exact .inl ⟨i, _, rfl, hx, h⟩
            · exact .inr ⟨i, _, rfl, hx, h⟩
        · have back : ∀ (i : Nat) (x : Val), xs[i]? = some x → (BotoKept x p w ∨ BotoListed shapes x p w) → At (.list l) (.int i :: p) w := by
            intro i x hx h
            have hi : i < l.length := by rw [← hlen]; exact (List.getElem?_eq_some_iff.1 hx).1
            have hy : l[i]? = some l[i] := List.getElem?_eq_getElem hi
            have hm := List.mem_of_getElem? hx
            exact .idx hy ((ih _ hm (hxw _ hm) (boto_exclusive_item he hm) _ (hget i x _ hx hy) p w ht).2 h)
          rintro (⟨i, x, rfl, hx, h⟩ | ⟨i, x, rfl, hx, h⟩)
          · exact back i x hx (.inl h)
          · exact back i x hx (.inr h)
  | hdict kvs ih =>
    intro hw he r h p w ht
    rw [replaceBotocore] at h
    split at h
    · cases h
    · rename_i d hd
      cases h
      have hn := wf_dict_nodup hw
      rw [replaceDict_spec shapes kvs [] d (by simpa using boto_targets_nodup hn (he [] kvs .here))] at hd
      obtain ⟨l, hdl, hl⟩ := hd
      rw [List.nil_append] at hdl
      subst hdl
      cases p with
      | nil =>
        rw [at_nil]
        constructor
        · rintro rfl
          cases d with
          | nil => rw [List.forall₂_nil_right_iff] at hl; subst hl; exact .inl ⟨.here, by simp⟩
          | cons y l => exact absurd rfl (ht.1 y l)
        · rintro (⟨h, -⟩ | h)
          · rw [at_nil] at h
            subst h
            cases kvs with
            | nil => rw [List.forall₂_nil_left_iff] at hl; subst hl; rfl
            | cons y ys => exact absurd rfl (ht.1 y ys)
          · exact absurd h listed_nil
      | cons k p =>
        rw [kept_cons, listed_cons]
        have fwd : ∀ kv' ∈ d, ∃ kv ∈ kvs, kv'.1 = (botoEntry shapes kv).1 ∧ (botoEntry shapes kv).2 = .ok kv'.2 := by
          intro kv' hm
          obtain ⟨n, hn', rfl⟩ := List.mem_iff_getElem.1 hm
          obtain ⟨hlen, hget⟩ := List.forall₂_iff_get.1 hl
          have := hget n (by rw [hlen]; exact hn') hn'
          exact ⟨_, List.getElem_mem _, this⟩
        have bwd : ∀ kv ∈ kvs, ∃ kv' ∈ d, kv'.1 = (botoEntry shapes kv).1 ∧ (botoEntry shapes kv).2 = .ok kv'.2 := by
          intro kv hm
          obtain ⟨n, hn', rfl⟩ := List.mem_iff_getElem.1 hm
          obtain ⟨hlen, hget⟩ := List.forall₂_iff_get.1 hl
          have := hget n hn' (by rw [← hlen]; exact hn')
          exact ⟨_, List.getElem_mem _, this⟩
        have hchild : ∀ kv ∈ kvs, kv.2.WF := by rw [Val.WF] at hw; exact wfDict_mem hw.2
        constructor
        · intro h
          cases h with
          | @key _ _ y _ _ hm hat =>
            obtain ⟨⟨a, x⟩, hkv, h1, h2⟩ := fwd _ hm
            unfold botoEntry at h1 h2
            dsimp only at h1 h2
            by_cases ha : a = .str "botocore"
            · subst ha
              simp only [if_true] at h1 h2
              rcases botocoreValues_spec shapes x with ⟨s, vs, rfl, hv, hb⟩ | ⟨⟨e, hb⟩, -⟩
              · rw [hb] at h2; cases h2
                exact .inr (.inl ⟨h1, s, vs, hkv, hv, hat⟩)
              · rw [hb] at h2; cases h2
            · simp only [if_neg ha] at h1 h2
              subst h1
              rcases (ih _ hkv (hchild _ hkv) (boto_exclusive_child he hkv) y h2 p w ht).1 hat with h | h
              · exact .inl ⟨ha, x, hkv, h⟩
              · exact .inr (.inr ⟨ha, x, hkv, h⟩)
        · have back : ∀ x, k ≠ .str "botocore" → (k, x) ∈ kvs → (BotoKept x p w ∨ BotoListed shapes x p w) → At (.dict d) (k :: p) w := by
            intro x hk hkv h
            obtain ⟨⟨a, y⟩, hm, h1, h2⟩ := bwd _ hkv
            unfold botoEntry at h1 h2
            dsimp only at h1 h2
            simp only [if_neg hk] at h1 h2
            subst h1
            exact .key hm ((ih _ hkv (hchild _ hkv) (boto_exclusive_child he hkv) y h2 p w ht).2 h)
          rintro (⟨hk, x, hkv, h⟩ | ⟨rfl, s, vs, hkv, hv, hat⟩ | ⟨hk, x, hkv, h⟩)
          · exact back x hk hkv (.inl h)
          · obtain ⟨⟨a, y⟩, hm, h1, h2⟩ := bwd _ hkv
            unfold botoEntry at h1 h2
            dsimp only at h1 h2
            simp only [if_true] at h1 h2
            subst h1
            rcases botocoreValues_spec shapes (.str s) with ⟨s', vs', e, hv', hb⟩ | ⟨⟨e, hb⟩, -⟩
            · cases e
              rw [hb] at h2; cases h2
              rw [botoValues_det hv' hv] at hm
              exact .key hm hat
            · rw [hb] at h2; cases h2
          · exact back x hk hkv (.inr h)

/-- **C126** (botocore types). In a document no object of which has both a botocore type and allowed values, replacing the botocore types puts the sorted values of the
type at `AllowedValues` in its place and changes nothing else. -/
theorem C126_botocore {shapes : String → PyM (String → PyM (List String))} {v r : Val} (hw : v.WF) (he : BotoExclusive v) (h : replaceBotocore shapes v = .ok r)
    (p : Path) (w : Val) (ht : Tip w) : At r p w ↔ BotoKept v p w ∨ BotoListed shapes v p w :=
  boto_main shapes v hw he r h p w ht

theorem replaceDict_ok_iff (shapes : String → PyM (String → PyM (List String))) : ∀ (kvs acc : List (Key × Val)),
    (∃ d, replaceBotocoreDict shapes kvs acc = .ok d) ↔ ∀ kv ∈ kvs, ∃ x, (botoEntry shapes kv).2 = .ok x
  | [], acc => by simp [replaceBotocoreDict]
  | (k, v) :: kvs, acc => by
    have ih := replaceDict_ok_iff shapes kvs
    simp only [List.forall_mem_cons]
    rw [replaceBotocoreDict]
    unfold botoEntry at ih ⊢
    dsimp only
    split
    · cases hb : botocoreValues shapes v with
      | error e => simp
      | ok x => dsimp only; rw [ih]; simp
    · cases hb : replaceBotocore shapes v with
      | error e => simp
      | ok x => dsimp only; rw [ih]; simp

theorem replaceDict_from (shapes : String → PyM (String → PyM (List String))) : ∀ (kvs acc d : List (Key × Val)), replaceBotocoreDict shapes kvs acc = .ok d →
    ∀ kv' ∈ d, kv' ∈ acc ∨ ∃ kv ∈ kvs, kv'.1 = (botoEntry shapes kv).1 ∧ (botoEntry shapes kv).2 = .ok kv'.2
  | [], acc, d, h, kv', hm => by
    simp only [replaceBotocoreDict, Except.ok.injEq] at h
    subst h; exact .inl hm
  | (k, v) :: kvs, acc, d, h, kv', hm => by
    have hset : ∀ {a : Key} {x : Val} {l : List (Key × Val)} {kv : Key × Val}, kv ∈ dset a x l → kv = (a, x) ∨ kv ∈ l := by
      intro a x l
      induction l with
      | nil => intro kv h; simp only [dset, List.mem_singleton] at h; exact .inl h
      | cons b l ih =>
        obtain ⟨b1, b2⟩ := b
        intro kv h
        unfold dset at h
        split at h
        · rename_i e
          rcases List.mem_cons.1 h with h | h
          · exact .inl (by rw [h, e])
          · exact .inr (List.mem_cons_of_mem _ h)
        · rcases List.mem_cons.1 h with h | h
          · exact .inr (by rw [h]; exact List.mem_cons_self)
          · rcases ih h with h | h
            · exact .inl h
            · exact .inr (List.mem_cons_of_mem _ h)
    rw [replaceBotocoreDict] at h
    split at h
    · rename_i hk
      subst hk
      split at h
      · cases h
      · rename_i x hx
        rcases replaceDict_from shapes kvs _ d h kv' hm with h1 | ⟨kv, h1, h2⟩
        · rcases hset h1 with h1 | h1
          · exact .inr ⟨_, List.mem_cons_self, by subst h1; simp only [botoEntry, if_true]; exact ⟨trivial, hx⟩⟩
          · exact .inl h1
        · exact .inr ⟨kv, List.mem_cons_of_mem _ h1, h2⟩
    · rename_i hk
      split at h
      · cases h
      · rename_i x hx
        rcases replaceDict_from shapes kvs _ d h kv' hm with h1 | ⟨kv, h1, h2⟩
        · rcases hset h1 with h1 | h1
          · exact .inr ⟨_, List.mem_cons_self, by subst h1; simp only [botoEntry, if_neg hk]; exact ⟨trivial, hx⟩⟩
          · exact .inl h1
        · exact .inr ⟨kv, List.mem_cons_of_mem _ h1, h2⟩

theorem replaceBotocore_scalar {shapes : String → PyM (String → PyM (List String))} {v : Val} (h1 : ∀ d, v ≠ .dict d) (h2 : ∀ l, v ≠ .list l) : replaceBotocore shapes v = .ok v := by
  cases v with
  | dict d => exact absurd rfl (h1 d)
  | list l => exact absurd rfl (h2 l)
  | _ => rw [replaceBotocore] <;> (intro _ e; cases e)

/-- **C126** (all replaced). After the replacement nothing is left under the name `botocore`, anywhere. -/
theorem C126_botocore_gone {shapes : String → PyM (String → PyM (List String))} (v : Val) : ∀ {r : Val}, replaceBotocore shapes v = .ok r →
    ∀ p w, At r p w → Key.str "botocore" ∉ p := by
  have scalar : ∀ (v : Val), (∀ d, v ≠ .dict d) → (∀ l, v ≠ .list l) → ∀ {r : Val}, replaceBotocore shapes v = .ok r → ∀ p w, At r p w → Key.str "botocore" ∉ p := by
    intro v h1 h2 r h p w hat
    rw [replaceBotocore_scalar h1 h2] at h
    cases h
    cases hat with
    | here => simp
    | key => exact absurd rfl (h1 _)
    | idx => exact absurd rfl (h2 _)
  induction v using Val.ind with
  | hnone => exact scalar _ (by intro _ e; cases e) (by intro _ e; cases e)
  | hbool b => exact scalar _ (by intro _ e; cases e) (by intro _ e; cases e)
  | hint b => exact scalar _ (by intro _ e; cases e) (by intro _ e; cases e)
  | hflt b => exact scalar _ (by intro _ e; cases e) (by intro _ e; cases e)
  | hstr b => exact scalar _ (by intro _ e; cases e) (by intro _ e; cases e)
  | hlist xs ih =>
    intro r h p w hat
    rw [replaceBotocore] at h
    split at h
    · cases h
    · rename_i l hl
      cases h
      rw [replaceList_spec] at hl
      cases hat with
      | here => simp
      | @idx _ i y p _ hy hat =>
        obtain ⟨h2, rfl⟩ := List.getElem?_eq_some_iff.1 hy
        obtain ⟨hlen, hget⟩ := List.forall₂_iff_get.1 hl
        have hi : i < xs.length := by rw [hlen]; exact h2
        have := hget i hi h2
        simp only [List.get_eq_getElem] at this
        simpa using ih _ (List.getElem_mem hi) this p w hat
  | hdict kvs ih =>
    intro r h p w hat
    rw [replaceBotocore] at h
    split at h
    · cases h
    · rename_i d hd
      cases h
      cases hat with
      | here => simp
      | @key _ k y p _ hm hat =>
        rcases replaceDict_from shapes kvs [] d hd _ hm with h | ⟨⟨a, x⟩, hkv, h1, h2⟩
        · cases h
        · unfold botoEntry at h1 h2
          dsimp only at h1 h2
          simp only [List.mem_cons, not_or]
          by_cases ha : a = .str "botocore"
          · subst ha
            simp only [if_true] at h1 h2
            subst h1
            refine ⟨by simp, ?_⟩
            rcases botocoreValues_spec shapes x with ⟨s, l, rfl, -, hb⟩ | ⟨⟨e, hb⟩, -⟩
            · rw [hb] at h2; cases h2
              cases hat with
              | here => simp
              | idx hi hat =>
                rw [List.getElem?_map, Option.map_eq_some_iff] at hi
                obtain ⟨t, -, rfl⟩ := hi
                cases hat
                simp
            · rw [hb] at h2; cases h2
          · simp only [if_neg ha] at h1 h2
            subst h1
            exact ⟨fun e => ha e.symm, ih _ hkv h2 p w hat⟩

/-- **C126** (failures). The replacement fails exactly if somewhere a botocore type is not a text, or names a type that cannot be had. -/
theorem C126_botocore_ok_iff {shapes : String → PyM (String → PyM (List String))} (v : Val) :
    (∃ r, replaceBotocore shapes v = .ok r) ↔
      ∀ q x, Key.str "botocore" ∉ q → At v (q ++ [.str "botocore"]) x → ∃ s l, x = .str s ∧ BotoValues shapes s l := by
  have scalar : ∀ (v : Val), (∀ d, v ≠ .dict d) → (∀ l, v ≠ .list l) →
      ((∃ r, replaceBotocore shapes v = .ok r) ↔ ∀ q x, Key.str "botocore" ∉ q → At v (q ++ [.str "botocore"]) x → ∃ s l, x = .str s ∧ BotoValues shapes s l) := by
    intro v h1 h2
    refine ⟨fun _ q x _ hat => ?_, fun _ => ⟨v, replaceBotocore_scalar h1 h2⟩⟩
    generalize hg : q ++ [Key.str "botocore"] = p at hat
    cases hat with
    | here => simp at hg
    | key => exact absurd rfl (h1 _)
    | idx => exact absurd rfl (h2 _)
  induction v using Val.ind with
  | hnone => exact scalar _ (by intro _ e; cases e) (by intro _ e; cases e)
  | hbool b => exact scalar _ (by intro _ e; cases e) (by intro _ e; cases e)
  | hint b => exact scalar _ (by intro _ e; cases e) (by intro _ e; cases e)
  | hflt b => exact scalar _ (by intro _ e; cases e) (by intro _ e; cases e)
  | hstr b => exact scalar _ (by intro _ e; cases e) (by intro _ e; cases e)
  | hlist xs ih =>
    have hlist : (∃ r, replaceBotocore shapes (.list xs) = .ok r) ↔ ∀ x ∈ xs, ∃ y, replaceBotocore shapes x = .ok y := by
      rw [replaceBotocore]
      have : (∃ l, replaceBotocoreList shapes xs = .ok l) ↔ ∀ x ∈ xs, ∃ y, replaceBotocore shapes x = .ok y := by
        clear ih
        induction xs with
        | nil => simp [replaceBotocoreList]
        | cons x xs ihx =>
          simp only [List.forall_mem_cons, ← ihx]
          rw [replaceBotocoreList]
          cases replaceBotocore shapes x with
          | error e => simp
          | ok y =>
            dsimp only
            cases replaceBotocoreList shapes xs with
            | error e => simp
            | ok l => simp
      rw [← this]
      cases replaceBotocoreList shapes xs with
      | error e => simp
      | ok l => simp
    rw [hlist]
    constructor
    · intro h q x hq hat
      cases q with
      | nil => simp only [List.nil_append] at hat; cases hat
      | cons a q =>
        simp only [List.cons_append] at hat
        simp only [List.mem_cons, not_or] at hq
        cases hat with
        | idx hi hat =>
          have hm := List.mem_of_getElem? hi
          exact (ih _ hm).1 (h _ hm) q x hq.2 hat
    · intro h x hx
      refine (ih x hx).2 ?_
      intro q y hq hat
      obtain ⟨n, hn, rfl⟩ := List.mem_iff_getElem.1 hx
      exact h (.int n :: q) y (by simpa using hq) (.idx (List.getElem?_eq_getElem hn) hat)
  | hdict kvs ih =>
    have hdict : (∃ r, replaceBotocore shapes (.dict kvs) = .ok r) ↔ ∀ kv ∈ kvs, ∃ x, (botoEntry shapes kv).2 = .ok x := by
      rw [← replaceDict_ok_iff shapes kvs [], replaceBotocore]
      cases replaceBotocoreDict shapes kvs [] with
      | error e => simp
      | ok l => simp
    rw [hdict]
    constructor
    · intro h q x hq hat
      cases q with
      | nil =>
        simp only [List.nil_append] at hat
        cases hat with
        | key hm hat =>
          rw [at_nil] at hat
          subst hat
          obtain ⟨y, hy⟩ := h _ hm
          simp only [botoEntry, if_true] at hy
          rcases botocoreValues_spec shapes _ with ⟨s, l, e, hv, hb⟩ | ⟨⟨e, hb⟩, -⟩
          · exact ⟨s, l, e, hv⟩
          · rw [hb] at hy; cases hy
      | cons a q =>
        simp only [List.cons_append] at hat
        simp only [List.mem_cons, not_or] at hq
        cases hat with
        | key hm hat =>
          obtain ⟨y, hy⟩ := h _ hm
          simp only [botoEntry, if_neg (fun e => hq.1 (Eq.symm e))] at hy
          exact (ih _ hm).1 ⟨y, hy⟩ q x hq.2 hat
    · rintro h ⟨k, x⟩ hx
      unfold botoEntry
      dsimp only
      split
      · rename_i hk
        subst hk
        obtain ⟨s, l, e, hv⟩ := h [] x (by simp) (.key hx .here)
        rcases botocoreValues_spec shapes x with ⟨s', l', -, -, hb⟩ | ⟨-, hno⟩
        · exact ⟨_, hb⟩
        · exact absurd ⟨s, l, e, hv⟩ hno
      · rename_i hk
        refine (ih _ hx).2 (fun q y hq hat => h (k :: q) y ?_ (.key hx hat))
        simp only [List.mem_cons, not_or]
        exact ⟨fun e => hk e.symm, hq⟩

/-- **C126** (the whole). Processing a specification applies the patches for all regions, then those of the region, and then replaces the botocore types. -/
theorem C126_process (load : String → String → List Patch) (listing : String → List String) (shapes : String → PyM (String → PyM (List String))) (region : String) (d : Val)
    (hs : ∀ r, (listing r).Pairwise (· ≤ ·)) (hj : ∀ r, ∀ f ∈ listing r, ".json".toList <:+ f.toList) :
    processSpec load listing shapes region d =
      replaceBotocore shapes (applyPatches ((listing "all").flatMap (load "all") ++ (listing region).flatMap (load region)) d) := by
  unfold processSpec
  rw [C126_file_order _ _ _ (hs _) (hj _), C126_file_order _ _ _ (hs _) (hj _), applyPatches_append]

/-! ### Examples -/

def exPatched : Val := .dict [(.str "ResourceTypes", .dict [(.str "A", .dict [(.str "x", .int 1)])])]

/-- the hypotheses of `C126_patch`, `C126_skipped`, `C126_untouched` and `C126_last` can be met -/
example : exPatched.WF ∧ PatchWF (.add [.str "ResourceTypes", .str "B"] (.str "y")) ∧ PatchFits exPatched (.add [.str "ResourceTypes", .str "B"] (.str "y")) ∧
    ¬ PatchFits exPatched (.remove [.str "Gone"]) ∧ applyPatches [.add [.str "ResourceTypes", .str "B"] (.str "y"), .remove [.str "Gone"]] exPatched =
      .dict [(.str "ResourceTypes", .dict [(.str "A", .dict [(.str "x", .int 1)]), (.str "B", .str "y")])] := by
  refine ⟨by simp [exPatched, Val.WF, Val.WFDict], by simp [PatchWF, Val.WF], .inr ⟨[.str "ResourceTypes"], _, _, rfl, .into List.mem_cons_self (.here _)⟩, ?_, rfl⟩
  intro h
  obtain ⟨kvs, x, e, hx⟩ := hasMember_one.1 h
  cases e
  simp at hx

def exShapes (svc : String) : PyM (String → PyM (List String)) :=
  if svc = "ec2/2016" then .ok (fun t => if t = "T" then .ok ["b", "a"] else .error (.keyError t)) else .error (.other "HTTPError")

/-- the hypotheses of `C126_botocore` can be met -/
example : BotoExclusive (.dict [(.str "botocore", .str "ec2/2016/T")]) ∧ BotoValues exShapes "ec2/2016/T" ["a", "b"] := by
  constructor
  · intro p kvs h
    generalize hg : Val.dict kvs = w at h
    cases h with
    | here => cases hg; simp
    | key hm h =>
      simp only [List.mem_singleton, Prod.mk.injEq] at hm
      obtain ⟨rfl, rfl⟩ := hm
      cases h; cases hg
  · exact ⟨"ec2/2016", "T", _, ["b", "a"], (by
        have := BotoName.slash (svc := "ec2/2016") (ty := "T") (by decide)
        have e : "ec2/2016" ++ "/" ++ "T" = "ec2/2016/T" := by decide
        rwa [e] at this), by simp [exShapes]; rfl, by simp, List.Perm.swap _ _ _, by decide⟩

/-- the hypotheses of `C126_file_order` and `C126_files` can be met -/
example : ["01.json", "02.json"].Pairwise (· ≤ ·) ∧ ∀ f ∈ ["01.json", "02.json"], ".json".toList <:+ f.toList := by decide

end CfnLint
