import Verif.Spec.ListSpecs
import Verif.Lemmas.PathConds
import Verif.Lemmas.Config
import Mathlib.Data.List.Perm.Basic
/- The value with its keys sorted stands for its JSON text. -/
namespace CfnLint
open Spec

theorem keyLe_total (a b : Key) : keyLe a b = true ∨ keyLe b a = true := by
  cases a <;> cases b <;> simp [keyLe]
  · exact String.le_total _ _
  · omega

theorem keyLe_trans {a b c : Key} (h1 : keyLe a b = true) (h2 : keyLe b c = true) : keyLe a c = true := by
  cases a <;> cases b <;> cases c <;> simp [keyLe] at h1 h2 ⊢
  · exact String.le_trans h1 h2
  · omega

theorem keyLe_antisymm {a b : Key} (h1 : keyLe a b = true) (h2 : keyLe b a = true) : a = b := by
  cases a <;> cases b <;> simp [keyLe] at h1 h2 ⊢
  · exact String.le_antisymm h1 h2
  · omega

theorem insertKey_perm (kv : Key × Val) : ∀ l, (insertKey kv l).Perm (kv :: l)
  | [] => List.Perm.refl _
  | x :: xs => by
    rw [insertKey]
    split
    · exact List.Perm.refl _
    · exact ((insertKey_perm kv xs).cons x).trans (List.Perm.swap _ _ _)

theorem insertKey_sorted {kv : Key × Val} : ∀ {l : List (Key × Val)}, l.Pairwise (fun a b => keyLe a.1 b.1 = true) →
    (insertKey kv l).Pairwise (fun a b => keyLe a.1 b.1 = true)
  | [], _ => by simp [insertKey]
  | x :: xs, h => by
    rw [insertKey]
    split
    · rename_i hle
      rw [List.pairwise_cons] at h ⊢
      refine ⟨fun y hy => ?_, List.pairwise_cons.2 h⟩
      rcases List.mem_cons.1 hy with rfl | hy
      · exact hle
      · exact keyLe_trans hle (h.1 y hy)
    · rename_i hle
      rw [List.pairwise_cons] at h ⊢
      refine ⟨fun y hy => ?_, insertKey_sorted h.2⟩
      rcases List.mem_cons.1 ((insertKey_perm kv xs).mem_iff.1 hy) with rfl | hy
      · exact (keyLe_total _ _).resolve_left hle
      · exact h.1 y hy

theorem sortedItems_eq : ∀ xs : List Val, sortedItems xs = xs.map sortedKeys
  | [] => by rw [sortedItems]; rfl
  | x :: xs => by rw [sortedItems, sortedItems_eq xs, List.map_cons]

theorem sortedEntries_perm : ∀ kvs : List (Key × Val), (sortedEntries kvs).Perm (kvs.map (fun kv => (kv.1, sortedKeys kv.2)))
  | [] => by rw [sortedEntries]; exact List.Perm.refl _
  | (k, v) :: rest => by
    rw [sortedEntries, List.map_cons]
    exact (insertKey_perm _ _).trans ((sortedEntries_perm rest).cons _)

theorem sortedEntries_sorted : ∀ kvs : List (Key × Val), (sortedEntries kvs).Pairwise (fun a b => keyLe a.1 b.1 = true)
  | [] => by rw [sortedEntries]; exact List.Pairwise.nil
  | (k, v) :: rest => by
    rw [sortedEntries]
    exact insertKey_sorted (sortedEntries_sorted rest)

theorem sortedKeys_atom {a : Val} (h : Atom a) : sortedKeys a = a := by
  cases a with
  | list xs => exact absurd rfl (h.1 xs)
  | dict kvs => exact absurd rfl (h.2 kvs)
  | _ => rw [sortedKeys] <;> simp

theorem sortedKeys_eq_atom {a v : Val} (h : Atom a) (e : sortedKeys v = a) : v = a := by
  cases v with
  | list xs => rw [sortedKeys] at e; exact absurd e.symm (h.1 _)
  | dict kvs => rw [sortedKeys] at e; exact absurd e.symm (h.2 _)
  | _ => rwa [sortedKeys_atom ⟨by simp, by simp⟩] at e

theorem at_sorted {v w : Val} {p : Path} (h : At v p w) : At (sortedKeys v) p (sortedKeys w) := by
  induction h with
  | here => exact .here
  | key hm _ ih =>
    rw [sortedKeys]
    exact .key ((sortedEntries_perm _).mem_iff.2 (List.mem_map.2 ⟨_, hm, rfl⟩)) ih
  | idx hx _ ih =>
    rw [sortedKeys, sortedItems_eq]
    exact .idx (by rw [List.getElem?_map, hx]; rfl) ih

theorem of_at_sorted {p : Path} : ∀ {v w' : Val}, At (sortedKeys v) p w' → ∃ w, At v p w ∧ w' = sortedKeys w := by
  induction p with
  | nil =>
    intro v w' h
    generalize hs : sortedKeys v = u at h
    cases h
    exact ⟨v, .here, hs.symm⟩
  | cons k p ih =>
    intro v w' h
    cases v with
    | list xs =>
      rw [sortedKeys, sortedItems_eq] at h
      cases h with
      | idx hx h =>
        rw [List.getElem?_map] at hx
        obtain ⟨x, hx1, rfl⟩ := Option.map_eq_some_iff.1 hx
        obtain ⟨w, hw, e⟩ := ih h
        exact ⟨w, .idx hx1 hw, e⟩
    | dict kvs =>
      rw [sortedKeys] at h
      cases h with
      | key hm h =>
        obtain ⟨⟨k', v⟩, hm', e⟩ := List.mem_map.1 ((sortedEntries_perm _).mem_iff.1 hm)
        cases e
        obtain ⟨w, hw, e⟩ := ih h
        exact ⟨w, .key hm' hw, e⟩
    | none => rw [sortedKeys_atom ⟨by simp, by simp⟩] at h; cases h
    | bool => rw [sortedKeys_atom ⟨by simp, by simp⟩] at h; cases h
    | int => rw [sortedKeys_atom ⟨by simp, by simp⟩] at h; cases h
    | flt => rw [sortedKeys_atom ⟨by simp, by simp⟩] at h; cases h
    | str => rw [sortedKeys_atom ⟨by simp, by simp⟩] at h; cases h

theorem sameText_refl (v : Val) : SameText v v := fun _ => ⟨fun _ _ => Iff.rfl, Iff.rfl, Iff.rfl⟩

theorem sameText_symm {v w : Val} (h : SameText v w) : SameText w v :=
  fun p => ⟨fun a ha => ((h p).1 a ha).symm, (h p).2.1.symm, (h p).2.2.symm⟩

theorem sameText_trans {u v w : Val} (h : SameText u v) (h' : SameText v w) : SameText u w :=
  fun p => ⟨fun a ha => ((h p).1 a ha).trans ((h' p).1 a ha), (h p).2.1.trans (h' p).2.1, (h p).2.2.trans (h' p).2.2⟩

theorem sameText_sorted (v : Val) : SameText v (sortedKeys v) := by
  intro p
  refine ⟨fun a ha => ⟨fun h => ?_, fun h => ?_⟩, ⟨?_, ?_⟩, ⟨?_, ?_⟩⟩
  · have := at_sorted h
    rwa [sortedKeys_atom ha] at this
  · obtain ⟨w, hw, e⟩ := of_at_sorted h
    rwa [sortedKeys_eq_atom ha e.symm] at hw
  · rintro ⟨xs, h⟩
    have := at_sorted h
    rw [sortedKeys] at this
    exact ⟨_, this⟩
  · rintro ⟨xs, h⟩
    obtain ⟨w, hw, e⟩ := of_at_sorted h
    cases w with
    | list ys => exact ⟨ys, hw⟩
    | dict kvs => rw [sortedKeys] at e; cases e
    | _ => rw [sortedKeys_atom ⟨by simp, by simp⟩] at e; cases e
  · rintro ⟨xs, h⟩
    have := at_sorted h
    rw [sortedKeys] at this
    exact ⟨_, this⟩
  · rintro ⟨xs, h⟩
    obtain ⟨w, hw, e⟩ := of_at_sorted h
    cases w with
    | dict ys => exact ⟨ys, hw⟩
    | list kvs => rw [sortedKeys] at e; cases e
    | _ => rw [sortedKeys_atom ⟨by simp, by simp⟩] at e; cases e

theorem sameText_child {v w x y : Val} {k : Key} (hv : v.WF) (hw : w.WF) (h : SameText v w) (hx : At v [k] x) (hy : At w [k] y) :
    SameText x y := by
  have h1 : ∀ {t c : Val}, t.WF → At t [k] c → ∀ p a, At c p a ↔ At t (k :: p) a := by
    intro t c ht hc p a
    rw [at_cons]
    constructor
    · exact fun h => ⟨c, hc, h⟩
    · rintro ⟨c', hc', h⟩
      cases at_unique ht hc hc'
      exact h
  intro p
  refine ⟨fun a ha => ?_, ?_, ?_⟩
  · rw [h1 hv hx, h1 hw hy]; exact (h _).1 a ha
  · simp only [h1 hv hx, h1 hw hy]; exact (h _).2.1
  · simp only [h1 hv hx, h1 hw hy]; exact (h _).2.2

theorem sameText_exists {v w x : Val} {k : Key} (h : SameText v w) (hx : At v [k] x) : ∃ y, At w [k] y := by
  by_cases hl : ∃ xs, x = .list xs
  · obtain ⟨xs, rfl⟩ := hl
    obtain ⟨ys, hy⟩ := (h [k]).2.1.1 ⟨xs, hx⟩
    exact ⟨_, hy⟩
  · by_cases hd : ∃ kvs, x = .dict kvs
    · obtain ⟨xs, rfl⟩ := hd
      obtain ⟨ys, hy⟩ := (h [k]).2.2.1 ⟨xs, hx⟩
      exact ⟨_, hy⟩
    · exact ⟨x, ((h [k]).1 x ⟨fun xs e => hl ⟨xs, e⟩, fun xs e => hd ⟨xs, e⟩⟩).1 hx⟩

theorem sorted_of_sameText : ∀ {v w : Val}, v.WF → w.WF → SameText v w → sortedKeys v = sortedKeys w := by
  intro v
  induction v using Val.ind with
  | hlist xs ih =>
    intro w hv hw h
    obtain ⟨ys, hy⟩ := (h []).2.1.1 ⟨xs, .here⟩
    cases hy
    rw [sortedKeys, sortedKeys, sortedItems_eq, sortedItems_eq]
    congr 1
    apply List.ext_getElem?
    intro i
    rw [List.getElem?_map, List.getElem?_map]
    cases hx : xs[i]? with
    | none =>
      cases hy : ys[i]? with
      | none => rfl
      | some y =>
        obtain ⟨x, hx'⟩ := sameText_exists (sameText_symm h) (.idx hy .here)
        cases hx' with
        | idx hx' _ => rename_i hx2; rw [hx] at hx'; cases hx'
    | some x =>
      obtain ⟨y, hy⟩ := sameText_exists h (.idx hx .here)
      cases hy with
      | idx hy h' =>
        cases h'
        rw [hy]
        simp only [Option.map_some]
        rw [ih x (List.mem_of_getElem? hx) (wfList_at hv (List.mem_of_getElem? hx)) (wfList_at hw (List.mem_of_getElem? hy))
          (sameText_child hv hw h (.idx hx .here) (.idx hy .here))]
  | hdict kvs ih =>
    intro w hv hw h
    obtain ⟨ms, hy⟩ := (h []).2.2.1 ⟨kvs, .here⟩
    cases hy
    rw [sortedKeys, sortedKeys]
    congr 1
    have hmem : ∀ kv, kv ∈ sortedEntries kvs ↔ kv ∈ sortedEntries ms := by
      intro kv
      rw [(sortedEntries_perm kvs).mem_iff, (sortedEntries_perm ms).mem_iff, List.mem_map, List.mem_map]
      constructor
      · rintro ⟨⟨k, x⟩, hm, rfl⟩
        obtain ⟨y, hy⟩ := sameText_exists h (.key hm .here)
        cases hy with
        | key hm' h' =>
          cases h'
          refine ⟨(k, y), hm', ?_⟩
          simp only [Prod.mk.injEq, true_and]
          exact (ih (k, x) hm (wfDict_at hv.2 hm) (wfDict_at hw.2 hm') (sameText_child hv hw h (.key hm .here) (.key hm' .here))).symm
      · rintro ⟨⟨k, y⟩, hm', rfl⟩
        obtain ⟨x, hx⟩ := sameText_exists (sameText_symm h) (.key hm' .here)
        cases hx with
        | key hm h' =>
          cases h'
          refine ⟨(k, x), hm, ?_⟩
          simp only [Prod.mk.injEq, true_and]
          exact ih (k, x) hm (wfDict_at hv.2 hm) (wfDict_at hw.2 hm') (sameText_child hv hw h (.key hm .here) (.key hm' .here))
    have hkeys : ∀ l : List (Key × Val), (l.map Prod.fst).Nodup → ((sortedEntries l).map Prod.fst).Nodup := by
      intro l hl
      refine ((sortedEntries_perm l).map Prod.fst).nodup_iff.2 ?_
      rw [List.map_map]
      exact hl
    have hnd : ∀ l : List (Key × Val), (l.map Prod.fst).Nodup → (sortedEntries l).Nodup := fun l hl => List.Pairwise.of_map Prod.fst (fun a b h e => h (congrArg Prod.fst e)) (hkeys l hl)
    have hperm := (List.perm_ext_iff_of_nodup (hnd _ hv.1) (hnd _ hw.1)).2 hmem
    refine List.Perm.eq_of_pairwise ?_ (sortedEntries_sorted kvs) (sortedEntries_sorted ms) hperm
    rintro ⟨k1, x1⟩ ⟨k2, x2⟩ h1 h2 h3 h4
    cases keyLe_antisymm h3 h4
    have e1 := dlookup_of_mem (hkeys _ hw.1) ((hmem _).1 h1)
    have e2 := dlookup_of_mem (hkeys _ hw.1) h2
    rw [e1] at e2
    cases e2
    rfl
  | _ =>
    intro w _ _ h
    have := ((h []).1 _ ⟨by simp, by simp⟩).1 .here
    cases this
    rfl

/-- sorting the keys tells the JSON texts of values apart -/
theorem sortedKeys_iff {v w : Val} (hv : v.WF) (hw : w.WF) : sortedKeys v = sortedKeys w ↔ SameText v w := by
  constructor
  · intro h
    refine sameText_trans (sameText_sorted v) ?_
    rw [h]
    exact sameText_symm (sameText_sorted w)
  · exact sorted_of_sameText hv hw

end CfnLint
