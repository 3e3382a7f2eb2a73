import Verif.Model.NodeOps
import Verif.Spec.Template
import Verif.Lemmas.Dict
/- Lemmas for resolving `Fn::If` (`get_values`, `items_safe`). -/
namespace CfnLint
open Spec

theorem leaf_of_notIf {v w : Val} {p : Path} (h : ¬ IsIf v) : Leaf v p w ↔ p = [] ∧ w = v ∧ v ≠ noValue := by
  constructor
  · intro hl
    cases hl with
    | here _ hn => exact ⟨rfl, rfl, hn⟩
    | left _ => exact absurd ⟨_, rfl⟩ h
    | right _ => exact absurd ⟨_, rfl⟩ h
  · rintro ⟨rfl, rfl, hn⟩; exact .here h hn

theorem leaf_fnIf {c a b w : Val} {p : Path} : Leaf (fnIf c a b) p w ↔
    (∃ q, p = .str "Fn::If" :: .int 1 :: q ∧ Leaf a q w) ∨ (∃ q, p = .str "Fn::If" :: .int 2 :: q ∧ Leaf b q w) := by
  constructor
  · intro hl
    generalize hv : fnIf c a b = v at hl
    cases hl with
    | here h _ => exact absurd ⟨_, hv.symm⟩ h
    | left h => simp only [fnIf, Val.dict.injEq, List.cons.injEq, Prod.mk.injEq, Val.list.injEq] at hv; left; exact ⟨_, rfl, by rw [hv.1.2.2.1]; exact h⟩
    | right h => simp only [fnIf, Val.dict.injEq, List.cons.injEq, Prod.mk.injEq, Val.list.injEq] at hv; right; exact ⟨_, rfl, by rw [hv.1.2.2.2.1]; exact h⟩
  · rintro (⟨q, rfl, h⟩ | ⟨q, rfl, h⟩)
    · exact .left h
    · exact .right h

/-- an `Fn::If` that does not have three elements has no leaves -/
theorem leaf_badIf {w x : Val} {p : Path} (h : ∀ c a b, x ≠ .list [c, a, b]) :
    ¬ Leaf (.dict [(.str "Fn::If", x)]) p w := by
  intro hl
  generalize hv : Val.dict [(.str "Fn::If", x)] = v at hl
  cases hl with
  | here h' _ => exact h' ⟨_, hv.symm⟩
  | left _ => simp only [fnIf, Val.dict.injEq, List.cons.injEq, Prod.mk.injEq] at hv; exact h _ _ _ hv.1.2
  | right _ => simp only [fnIf, Val.dict.injEq, List.cons.injEq, Prod.mk.injEq] at hv; exact h _ _ _ hv.1.2

theorem isIf_single {k : Key} {v : Val} : IsIf (.dict [(k, v)]) ↔ k = .str "Fn::If" := by
  constructor
  · rintro ⟨w, hw⟩; simp at hw; exact hw.1
  · rintro rfl; exact ⟨v, rfl⟩

theorem noValue_single {k : Key} {v : Val} : Val.dict [(k, v)] = noValue ↔ k = .str "Ref" ∧ v = .str "AWS::NoValue" := by
  simp [noValue]

/-- a value that is not a one-key object is a leaf -/
theorem leaf_simple {v w : Val} {p : Path} (h : ∀ k x, v ≠ .dict [(k, x)]) : Leaf v p w ↔ p = [] ∧ w = v := by
  rw [leaf_of_notIf (fun ⟨x, hx⟩ => h _ x hx)]
  constructor
  · rintro ⟨h1, h2, _⟩; exact ⟨h1, h2⟩
  · rintro ⟨h1, h2⟩; exact ⟨h1, h2, h _ _⟩

theorem mem_leaf_simple {v : Val} (h : ∀ k x, v ≠ .dict [(k, x)]) {path p : Path} {w : Val} :
    (p, w) ∈ [(path, v)] ↔ ∃ q, p = path ++ q ∧ Leaf v q w := by
  simp only [leaf_simple h, List.mem_singleton, Prod.mk.injEq]
  constructor
  · rintro ⟨rfl, rfl⟩; exact ⟨[], by simp, rfl, rfl⟩
  · rintro ⟨q, rfl, rfl, rfl⟩; simp

mutual
theorem mem_condValues : ∀ (v : Val) (path p : Path) (w : Val),
    (p, w) ∈ condValues v path ↔ ∃ c a b, v = .list [c, a, b] ∧
      ((∃ q, p = path ++ .int 1 :: q ∧ Leaf a q w) ∨ (∃ q, p = path ++ .int 2 :: q ∧ Leaf b q w))
  | .list [c, a, b], path, p, w => by
    rw [condValues, List.mem_append, mem_condItem a, mem_condItem b]
    constructor
    · rintro (⟨q, rfl, h⟩ | ⟨q, rfl, h⟩)
      · exact ⟨c, a, b, rfl, .inl ⟨q, by simp, h⟩⟩
      · exact ⟨c, a, b, rfl, .inr ⟨q, by simp, h⟩⟩
    · rintro ⟨c', a', b', heq, h⟩
      simp only [Val.list.injEq, List.cons.injEq, and_true] at heq
      obtain ⟨rfl, rfl, rfl⟩ := heq
      rcases h with ⟨q, rfl, h⟩ | ⟨q, rfl, h⟩
      · exact .inl ⟨q, by simp, h⟩
      · exact .inr ⟨q, by simp, h⟩
  | .list [], path, p, w | .list [_], path, p, w | .list [_, _], path, p, w
  | .list (_ :: _ :: _ :: _ :: _), path, p, w
  | .none, path, p, w | .bool _, path, p, w | .int _, path, p, w | .flt _, path, p, w
  | .str _, path, p, w | .dict _, path, p, w => by
    simp [condValues]
theorem mem_condItem : ∀ (v : Val) (path p : Path) (w : Val),
    (p, w) ∈ condItem v path ↔ ∃ q, p = path ++ q ∧ Leaf v q w
  | .dict [(k, v)], path, p, w => by
    rw [condItem]
    split
    · rename_i hk
      subst hk
      rw [mem_condValues v]
      constructor
      · rintro ⟨c, a, b, rfl, h⟩
        rcases h with ⟨q, rfl, h⟩ | ⟨q, rfl, h⟩
        · exact ⟨_, by simp, .left h⟩
        · exact ⟨_, by simp, .right h⟩
      · rintro ⟨q, rfl, h⟩
        by_cases hv : ∃ c a b, v = .list [c, a, b]
        · obtain ⟨c, a, b, rfl⟩ := hv
          refine ⟨c, a, b, rfl, ?_⟩
          rcases leaf_fnIf.1 h with ⟨q, rfl, hl⟩ | ⟨q, rfl, hl⟩
          · exact .inl ⟨q, by simp, hl⟩
          · exact .inr ⟨q, by simp, hl⟩
        · exact absurd h (leaf_badIf (fun c a b heq => hv ⟨c, a, b, heq⟩))
    · rename_i hk
      have hni : ¬ IsIf (.dict [(k, v)]) := fun h => hk (isIf_single.1 h)
      simp only [leaf_of_notIf hni, ne_eq, noValue_single]
      split
      · rename_i hr
        split
        · rename_i hv
          simp [hr, hv]
        · rename_i hv
          simp only [List.mem_singleton, Prod.mk.injEq, hr, hv, and_false, not_false_eq_true, and_true]
          constructor
          · rintro ⟨rfl, rfl⟩; exact ⟨[], by simp, rfl, rfl⟩
          · rintro ⟨q, rfl, rfl, rfl⟩; simp
      · rename_i hr
        simp only [List.mem_singleton, Prod.mk.injEq, hr, false_and, not_false_eq_true, and_true]
        constructor
        · rintro ⟨rfl, rfl⟩; exact ⟨[], by simp, rfl, rfl⟩
        · rintro ⟨q, rfl, rfl, rfl⟩; simp
  | .dict [], path, p, w | .dict (_ :: _ :: _), path, p, w
  | .none, path, p, w | .bool _, path, p, w | .int _, path, p, w | .flt _, path, p, w
  | .str _, path, p, w | .list _, path, p, w => by
    rw [condItem]
    · exact mem_leaf_simple (by intro k v h; simp at h)
    all_goals (intro k v h; simp at h)
end


theorem mem_listElemValues {i : Nat} {x : Val} {path p : Path} {w : Val} :
    (p, w) ∈ listElemValues i x path ↔ ∃ r, p = path ++ .int i :: r ∧ Leaf x r w := by
  have key : (p, w) ∈ listElemValues i x path ↔ (p, w) ∈ condItem x (path ++ [.int i]) := by
    unfold listElemValues
    split
    · rename_i k v
      rw [condItem]
      split
      · rw [List.append_assoc]; rfl
      · split
        · rename_i h; rw [if_pos h.1, if_pos h.2]
        · rename_i h
          split
          · rename_i h1
            rw [if_neg (fun h2 => h ⟨h1, h2⟩)]
          · rfl
    · rename_i h
      rw [condItem]
      exact h
  rw [key, mem_condItem]
  simp

theorem mem_listValues : ∀ (xs : List Val) (i : Nat) (path p : Path) (w : Val),
    (p, w) ∈ listValues xs i path ↔ ∃ (j : Nat) (x : Val) (r : Path), xs[j]? = some x ∧
      p = path ++ .int ((i + j : Nat) : Int) :: r ∧ Leaf x r w
  | [], i, path, p, w => by simp [listValues]
  | x :: xs, i, path, p, w => by
    rw [listValues, List.mem_append, mem_listElemValues, mem_listValues xs]
    constructor
    · rintro (⟨q, rfl, h⟩ | ⟨j, y, q, hy, rfl, h⟩)
      · exact ⟨0, x, q, rfl, by simp, h⟩
      · exact ⟨j + 1, y, q, by simpa using hy, by simp only [Nat.add_assoc, Nat.add_comm 1], h⟩
    · rintro ⟨j, y, q, hy, rfl, h⟩
      cases j with
      | zero =>
        simp only [List.getElem?_cons_zero, Option.some.injEq] at hy
        subst hy
        left; exact ⟨q, by simp, h⟩
      | succ j =>
        right
        exact ⟨j, y, q, by simpa using hy, by simp only [Nat.add_assoc, Nat.add_comm 1], h⟩

theorem leaf_notIf {v w : Val} {p : Path} (h : Leaf v p w) : ¬ IsIf w ∧ w ≠ noValue := by
  induction h with
  | here h1 h2 => exact ⟨h1, h2⟩
  | left _ ih => exact ih
  | right _ ih => exact ih

/-- the paths of leaves are incomparable -/
theorem leaf_prefix {v w : Val} {p : Path} (h : Leaf v p w) : ∀ {p' : Path} {w' : Val} {r r' : Path},
    Leaf v p' w' → p ++ r = p' ++ r' → p = p' ∧ w = w' ∧ r = r' := by
  induction h with
  | here h1 h2 =>
    intro p' w' r r' hl heq
    obtain ⟨rfl, rfl, _⟩ := (leaf_of_notIf h1).1 hl
    exact ⟨rfl, rfl, by simpa using heq⟩
  | left _ ih =>
    intro p' w' r r' hl heq
    rcases leaf_fnIf.1 hl with ⟨q, hq, hl2⟩ | ⟨q, hq, hl2⟩ <;> subst hq
    · simp only [List.cons_append, List.cons.injEq, true_and] at heq
      obtain ⟨rfl, rfl, rfl⟩ := ih hl2 heq
      exact ⟨rfl, rfl, rfl⟩
    · simp at heq
  | right _ ih =>
    intro p' w' r r' hl heq
    rcases leaf_fnIf.1 hl with ⟨q, hq, hl2⟩ | ⟨q, hq, hl2⟩ <;> subst hq
    · simp at heq
    · simp only [List.cons_append, List.cons.injEq, true_and] at heq
      obtain ⟨rfl, rfl, rfl⟩ := ih hl2 heq
      exact ⟨rfl, rfl, rfl⟩

mutual
theorem condValues_nodup : ∀ (v : Val) (path : Path), ((condValues v path).map Prod.fst).Nodup
  | .list [c, a, b], path => by
    rw [condValues, List.map_append, List.nodup_append]
    refine ⟨condItem_nodup a _, condItem_nodup b _, ?_⟩
    rintro x hx y hy rfl
    obtain ⟨⟨p, w⟩, h1, h2⟩ := List.mem_map.1 hx
    obtain ⟨⟨p', w'⟩, h3, h4⟩ := List.mem_map.1 hy
    obtain ⟨q, hq, _⟩ := (mem_condItem a _ _ _).1 h1
    obtain ⟨q', hq', _⟩ := (mem_condItem b _ _ _).1 h3
    simp only at h2 h4
    rw [h2] at hq
    rw [h4, hq, List.append_assoc, List.append_assoc] at hq'
    have := List.append_cancel_left hq'
    simp at this
  | .list [], path | .list [_], path | .list [_, _], path
  | .list (_ :: _ :: _ :: _ :: _), path
  | .none, path | .bool _, path | .int _, path | .flt _, path
  | .str _, path | .dict _, path => by
    simp [condValues]
theorem condItem_nodup : ∀ (v : Val) (path : Path), ((condItem v path).map Prod.fst).Nodup
  | .dict [(k, v)], path => by
    rw [condItem]
    split
    · exact condValues_nodup v _
    · split
      · split <;> simp
      · simp
  | .dict [], path | .dict (_ :: _ :: _), path
  | .none, path | .bool _, path | .int _, path | .flt _, path
  | .str _, path | .list _, path => by
    simp [condItem]
end

theorem listElemValues_nodup (i : Nat) (x : Val) (path : Path) :
    ((listElemValues i x path).map Prod.fst).Nodup := by
  unfold listElemValues
  split
  · split
    · exact condValues_nodup _ _
    · split <;> simp
  · simp

theorem listValues_nodup : ∀ (xs : List Val) (i : Nat) (path : Path),
    ((listValues xs i path).map Prod.fst).Nodup
  | [], i, path => by simp [listValues]
  | x :: xs, i, path => by
    rw [listValues, List.map_append, List.nodup_append]
    refine ⟨listElemValues_nodup i x path, listValues_nodup xs (i + 1) path, ?_⟩
    rintro a ha b hb rfl
    obtain ⟨⟨p, w⟩, h1, h2⟩ := List.mem_map.1 ha
    obtain ⟨⟨p', w'⟩, h3, h4⟩ := List.mem_map.1 hb
    obtain ⟨q, hq, _⟩ := mem_listElemValues.1 h1
    obtain ⟨j, y, q', _, hq', _⟩ := (mem_listValues xs _ _ _ _).1 h3
    simp only at h2 h4
    rw [h2] at hq
    rw [h4, hq] at hq'
    have := List.append_cancel_left hq'
    simp only [List.cons.injEq, Key.int.injEq] at this
    omega

/-- the values of a leaf: the leaf itself, or the leaves of its elements -/
def leafValues (u : Val) (path : Path) : List (Path × Val) :=
  match u with
  | .list xs => listValues xs 0 path
  | u => [(path, u)]

theorem mem_leafValues {u : Val} {path p : Path} {w : Val} : (p, w) ∈ leafValues u path ↔
    ((∀ xs, u ≠ .list xs) ∧ p = path ∧ w = u ∨
     ∃ xs i x r, u = .list xs ∧ xs[i]? = some x ∧ Leaf x r w ∧ p = path ++ .int (i : Nat) :: r) := by
  unfold leafValues
  split
  · rename_i xs
    rw [mem_listValues]
    constructor
    · rintro ⟨j, x, r, hx, rfl, hl⟩
      exact .inr ⟨xs, j, x, r, rfl, hx, hl, by simp⟩
    · rintro (⟨h, _⟩ | ⟨xs', i, x, r, heq, hx, hl, rfl⟩)
      · exact absurd rfl (h xs)
      · injection heq with heq
        subst heq
        exact ⟨i, x, r, hx, by simp, hl⟩
  · rename_i h
    simp only [List.mem_singleton, Prod.mk.injEq]
    constructor
    · rintro ⟨rfl, rfl⟩; exact .inl ⟨h, rfl, rfl⟩
    · rintro (⟨_, rfl, rfl⟩ | ⟨xs, _, _, _, heq, _⟩)
      · exact ⟨rfl, rfl⟩
      · exact absurd heq (h xs)

/-- on a leaf no recursion is needed -/
theorem getValues_leaf {n : Nat} {u : Val} {path : Path} (h1 : ¬ IsIf u) (h2 : u ≠ noValue) (h3 : u ≠ .none) :
    getValues (n + 1) u path = .ok (some (leafValues u path)) := by
  unfold getValues
  split
  · rename_i heq; cases heq
  · exact absurd rfl h3
  · rename_i k v heq
    rw [if_neg (fun hk => h1 (isIf_single.2 hk)), if_neg (fun hk => h2 (noValue_single.2 hk))]
    try rfl
  · rfl
  · rename_i hl
    simp only [leafValues]

theorem extendAll_ok {n : Nat} : ∀ (l acc : List (Path × Val)),
    (∀ pu ∈ l, ¬ IsIf pu.2 ∧ pu.2 ≠ noValue ∧ pu.2 ≠ .none) →
    extendAll (getValues (n + 1)) l acc = .ok (acc ++ l.flatMap (fun pu => leafValues pu.2 pu.1))
  | [], acc, _ => by simp [extendAll]
  | (p, u) :: rest, acc, h => by
    obtain ⟨h1, h2, h3⟩ := h (p, u) List.mem_cons_self
    rw [extendAll, getValues_leaf h1 h2 h3]
    simp only [extendOpt]
    rw [extendAll_ok rest _ (fun pu hm => h pu (List.mem_cons_of_mem _ hm))]
    simp

theorem extendAll_null {n : Nat} : ∀ (l acc : List (Path × Val)),
    (∀ pu ∈ l, ¬ IsIf pu.2 ∧ pu.2 ≠ noValue) → (∃ pu ∈ l, pu.2 = .none) →
    extendAll (getValues (n + 1)) l acc = .error (.typeError "'NoneType' object is not iterable")
  | [], acc, _, h => by obtain ⟨_, hm, _⟩ := h; cases hm
  | (p, u) :: rest, acc, h, hex => by
    rw [extendAll]
    by_cases h3 : u = .none
    · subst h3
      rfl
    · obtain ⟨h1, h2⟩ := h (p, u) List.mem_cons_self
      rw [getValues_leaf h1 h2 h3]
      simp only [extendOpt]
      obtain ⟨pu, hm, hn⟩ := hex
      rcases List.mem_cons.1 hm with rfl | hm
      · exact absurd hn h3
      · exact extendAll_null rest _ (fun pu hm => h pu (List.mem_cons_of_mem _ hm)) ⟨pu, hm, hn⟩

theorem mem_condValues_leaf {v : Val} {path p : Path} {w : Val} :
    (p, w) ∈ condValues v (path ++ [.str "Fn::If"]) ↔ ∃ q, p = path ++ q ∧ Leaf (.dict [(.str "Fn::If", v)]) q w := by
  have := mem_condItem (.dict [(.str "Fn::If", v)]) path p w
  rw [condItem, if_pos rfl] at this
  exact this

/-- `get_values` returns exactly the values of the property -/
theorem getValues_spec {n : Nat} {v : Val} {path : Path} (h0 : v ≠ .none) (hnull : ∀ q, ¬ Leaf v q .none) :
    ∃ r, getValues (n + 2) v path = .ok (some r) ∧ (r.map Prod.fst).Nodup ∧
      ∀ p w, (p, w) ∈ r ↔ ∃ q, p = path ++ q ∧ PropValue v q w := by
  by_cases hif : IsIf v
  · obtain ⟨x, rfl⟩ := hif
    have hleaf : ∀ pu ∈ condValues x (path ++ [.str "Fn::If"]), ¬ IsIf pu.2 ∧ pu.2 ≠ noValue ∧ pu.2 ≠ .none := by
      rintro ⟨p, u⟩ hm
      obtain ⟨q, _, hl⟩ := mem_condValues_leaf.1 hm
      refine ⟨(leaf_notIf hl).1, (leaf_notIf hl).2, ?_⟩
      rintro h
      simp only at h
      subst h
      exact hnull q hl
    refine ⟨(condValues x (path ++ [.str "Fn::If"])).flatMap (fun pu => leafValues pu.2 pu.1), ?_, ?_, ?_⟩
    · rw [getValues, if_pos rfl, extendAll_ok _ _ hleaf]
      rfl
    · -- distinct paths
      have aux : ∀ l : List (Path × Val), (l.map Prod.fst).Nodup →
          (∀ pu ∈ l, ∃ q, pu.1 = path ++ q ∧ Leaf (.dict [(.str "Fn::If", x)]) q pu.2) →
          ((l.flatMap (fun pu => leafValues pu.2 pu.1)).map Prod.fst).Nodup := by
        intro l
        induction l with
        | nil => intro _ _; simp
        | cons pu rest ih =>
          intro hn hl
          rw [List.map_cons, List.nodup_cons] at hn
          rw [List.flatMap_cons, List.map_append, List.nodup_append]
          refine ⟨?_, ih hn.2 (fun pu hm => hl pu (List.mem_cons_of_mem _ hm)), ?_⟩
          · unfold leafValues
            split
            · exact listValues_nodup _ _ _
            · simp
          · rintro a ha b hb rfl
            obtain ⟨⟨p, w⟩, h1, h2⟩ := List.mem_map.1 ha
            obtain ⟨⟨p', w'⟩, h3, h4⟩ := List.mem_map.1 hb
            obtain ⟨pu', hm', h3⟩ := List.mem_flatMap.1 h3
            simp only at h2 h4
            subst h2 h4
            obtain ⟨q, hq, hlq⟩ := hl pu List.mem_cons_self
            obtain ⟨q', hq', hlq'⟩ := hl pu' (List.mem_cons_of_mem _ hm')
            have e1 : ∃ r, p' = pu.1 ++ r := by
              rcases mem_leafValues.1 h1 with ⟨_, h, _⟩ | ⟨_, _, _, r, _, _, _, h⟩
              · exact ⟨[], by simpa using h⟩
              · exact ⟨_, h⟩
            have e2 : ∃ r, p' = pu'.1 ++ r := by
              rcases mem_leafValues.1 h3 with ⟨_, h, _⟩ | ⟨_, _, _, r, _, _, _, h⟩
              · exact ⟨[], by simpa using h⟩
              · exact ⟨_, h⟩
            obtain ⟨r, hr⟩ := e1
            obtain ⟨r', hr'⟩ := e2
            rw [hr', hq, hq', List.append_assoc, List.append_assoc] at hr
            have := List.append_cancel_left hr
            obtain ⟨h5, _, _⟩ := leaf_prefix hlq' hlq this
            refine hn.1 (List.mem_map.2 ⟨pu', hm', ?_⟩)
            rw [hq', hq, h5]
      refine aux _ (condValues_nodup _ _) ?_
      rintro ⟨p, u⟩ hm
      obtain ⟨q, hq, hl⟩ := mem_condValues_leaf.1 hm
      exact ⟨q, hq, hl⟩
    · intro p w
      rw [List.mem_flatMap]
      constructor
      · rintro ⟨⟨p', u⟩, hm, hv⟩
        obtain ⟨q, rfl, hl⟩ := mem_condValues_leaf.1 hm
        rcases mem_leafValues.1 hv with ⟨hx, hp, hw⟩ | ⟨xs, i, y, r, hu, hy, hly, hp⟩
        · exact ⟨q, hp, q, u, hl, .inl ⟨hx, rfl, hw⟩⟩
        · exact ⟨q ++ .int i :: r, by rw [hp]; simp, q, u, hl, .inr ⟨xs, i, y, r, hu, hy, hly, rfl⟩⟩
      · rintro ⟨q', rfl, q, u, hl, hv⟩
        refine ⟨(path ++ q, u), mem_condValues_leaf.2 ⟨q, rfl, hl⟩, mem_leafValues.2 ?_⟩
        rcases hv with ⟨hx, hp, hw⟩ | ⟨xs, i, y, r, hu, hy, hly, hp⟩
        · exact .inl ⟨hx, by rw [hp], hw⟩
        · exact .inr ⟨xs, i, y, r, hu, hy, hly, by rw [hp]; simp⟩
  · by_cases hnv : v = noValue
    · subst hnv
      refine ⟨[], rfl, by simp, ?_⟩
      intro p w
      simp only [List.not_mem_nil, false_iff]
      rintro ⟨q', _, q, u, hl, _⟩
      exact ((leaf_of_notIf hif).1 hl).2.2 rfl
    · refine ⟨leafValues v path, getValues_leaf hif hnv h0, ?_, ?_⟩
      · unfold leafValues
        split
        · exact listValues_nodup _ _ _
        · simp
      · intro p w
        rw [mem_leafValues]
        constructor
        · rintro (⟨hx, hp, hw⟩ | ⟨xs, i, y, r, hu, hy, hly, hp⟩)
          · exact ⟨[], by simpa using hp, [], v, .here hif hnv, .inl ⟨hx, rfl, hw⟩⟩
          · exact ⟨.int i :: r, hp, [], v, .here hif hnv, .inr ⟨xs, i, y, r, hu, hy, hly, rfl⟩⟩
        · rintro ⟨q', rfl, q, u, hl, hv⟩
          obtain ⟨rfl, rfl, _⟩ := (leaf_of_notIf hif).1 hl
          rcases hv with ⟨hx, hp, hw⟩ | ⟨xs, i, y, r, hu, hy, hly, hp⟩
          · exact .inl ⟨hx, by rw [hp]; simp, hw⟩
          · exact .inr ⟨xs, i, y, r, hu, hy, hly, by rw [hp]; simp⟩

/-- a null branch makes `get_values` raise -/
theorem getValues_null {n : Nat} {v : Val} {path q : Path} (h0 : v ≠ .none) (hq : Leaf v q .none) :
    getValues (n + 2) v path = .error (.typeError "'NoneType' object is not iterable") := by
  by_cases hif : IsIf v
  · obtain ⟨x, rfl⟩ := hif
    rw [getValues, if_pos rfl, extendAll_null]
    · rfl
    · rintro ⟨p, u⟩ hm
      obtain ⟨q, _, hl⟩ := mem_condValues_leaf.1 hm
      exact leaf_notIf hl
    · exact ⟨(path ++ q, .none), mem_condValues_leaf.2 ⟨q, rfl, hq⟩, rfl⟩
  · exact absurd ((leaf_of_notIf hif).1 hq).2.1.symm h0

/-! ### items_safe -/

theorem isNoValueRef_iff {v : Val} : isNoValueRef v = true ↔ v = noValue := by
  unfold isNoValueRef
  split
  · rw [noValue_single]; simp
  · rename_i h
    simp only [Bool.false_eq_true, false_iff]
    intro hv
    exact h _ _ hv

theorem cleanLoop_eq : ∀ (kvs acc : List (Key × Val)), ((acc ++ kvs).map Prod.fst).Nodup →
    cleanLoop kvs acc = acc ++ kvs.filter (fun kv => decide (kv.2 ≠ noValue))
  | [], acc, _ => by simp [cleanLoop]
  | (k, v) :: rest, acc, h => by
    rw [cleanLoop]
    have h' : ((acc ++ rest).map Prod.fst).Nodup := by
      refine List.Nodup.sublist ?_ h
      refine List.Sublist.map _ ?_
      exact List.Sublist.append_left (List.sublist_cons_self _ _) _
    by_cases hv : v = noValue
    · rw [if_pos (isNoValueRef_iff.2 hv), cleanLoop_eq rest acc h', List.filter_cons_of_neg (by simp [hv])]
    · rw [if_neg (fun hc => hv (isNoValueRef_iff.1 hc)), List.filter_cons_of_pos (by simp [hv])]
      have hk : k ∉ acc.map Prod.fst := by
        intro hk
        rw [List.map_append, List.nodup_append] at h
        exact h.2.2 k hk k (by simp) rfl
      have hset : dset k v acc = acc ++ [(k, v)] := by
        clear h h'
        induction acc with
        | nil => rfl
        | cons a acc ih =>
          obtain ⟨k', v'⟩ := a
          simp only [List.map_cons, List.mem_cons, not_or] at hk
          rw [dset, if_neg (fun h => hk.1 h.symm), ih hk.2]
          rfl
      rw [hset, cleanLoop_eq rest _ (by simpa using h)]
      simp

theorem clean_eq {kvs : List (Key × Val)} (h : (kvs.map Prod.fst).Nodup) : clean kvs = withoutNoValue (.dict kvs) := by
  rw [clean, cleanLoop_eq kvs [] (by simpa using h)]
  rfl

theorem okType_without {types : List Ty} {v : Val} : okType types (withoutNoValue v) = okType types v := by
  unfold withoutNoValue
  split
  · unfold okType
    congr 2
  · rfl

theorem single_item {types : List Ty} {v v' : Val} {path p : Path} {w : Val} (h1 : ¬ IsIf v) (h2 : v ≠ noValue)
    (h3 : v' = withoutNoValue v) :
    (w, p) ∈ (if okType types v then [(v', path)] else []) ↔
      ∃ q u, Leaf v q u ∧ p = path ++ q ∧ w = withoutNoValue u ∧ okType types u = true := by
  simp only [leaf_of_notIf h1]
  constructor
  · intro h
    split at h
    · rename_i hok
      simp only [List.mem_singleton, Prod.mk.injEq] at h
      exact ⟨[], v, ⟨rfl, rfl, h2⟩, by simp [h.2], by rw [h.1, h3], hok⟩
    · cases h
  · rintro ⟨q, u, ⟨rfl, rfl, _⟩, rfl, rfl, hok⟩
    rw [if_pos hok]
    simp [h3]

mutual
theorem mem_itemsSafe (types : List Ty) : ∀ (kvs : List (Key × Val)) (path p : Path) (w : Val),
    (Val.dict kvs).WF → ((w, p) ∈ itemsSafe types kvs path ↔
      ∃ q u, Leaf (.dict kvs) q u ∧ p = path ++ q ∧ w = withoutNoValue u ∧ okType types u = true)
  | [(k, v)], path, p, w, hw => by
    rw [itemsSafe]
    split
    · rename_i hk
      subst hk
      rw [mem_ifBranches types v _ _ _ hw.2.1]
      constructor
      · rintro ⟨c, a, b, rfl, h⟩
        rcases h with ⟨q, u, hl, rfl, h⟩ | ⟨q, u, hl, rfl, h⟩
        · exact ⟨_, u, .left hl, by simp, h⟩
        · exact ⟨_, u, .right hl, by simp, h⟩
      · rintro ⟨q, u, hl, rfl, h⟩
        by_cases hv : ∃ c a b, v = .list [c, a, b]
        · obtain ⟨c, a, b, rfl⟩ := hv
          refine ⟨c, a, b, rfl, ?_⟩
          rcases leaf_fnIf.1 hl with ⟨q, rfl, hl2⟩ | ⟨q, rfl, hl2⟩
          · exact .inl ⟨q, u, hl2, by simp, h⟩
          · exact .inr ⟨q, u, hl2, by simp, h⟩
        · exact absurd hl (leaf_badIf (fun c a b heq => hv ⟨c, a, b, heq⟩))
    · rename_i hk
      have hni : ¬ IsIf (.dict [(k, v)]) := fun h => hk (isIf_single.1 h)
      split
      · rename_i hr
        simp only [leaf_of_notIf hni, List.not_mem_nil, false_iff]
        rintro ⟨q, u, ⟨_, _, hn⟩, _⟩
        exact hn (noValue_single.2 hr)
      · rename_i hr
        exact single_item hni (fun h => hr (noValue_single.1 h)) (clean_eq hw.1)
  | [], path, p, w, hw => by
    rw [itemsSafe]
    · exact single_item (fun ⟨x, hx⟩ => by simp at hx) (by simp [noValue]) (clean_eq hw.1)
    · intro k v h; simp at h
  | (a :: b :: rest), path, p, w, hw => by
    rw [itemsSafe]
    · exact single_item (fun ⟨x, hx⟩ => by simp at hx) (by simp [noValue]) (clean_eq hw.1)
    · intro k v h; simp at h
theorem mem_ifBranches (types : List Ty) : ∀ (v : Val) (path p : Path) (w : Val), v.WF →
    ((w, p) ∈ ifBranches types v path ↔ ∃ c a b, v = .list [c, a, b] ∧
      ((∃ q u, Leaf a q u ∧ p = path ++ .int 1 :: q ∧ w = withoutNoValue u ∧ okType types u = true) ∨
       (∃ q u, Leaf b q u ∧ p = path ++ .int 2 :: q ∧ w = withoutNoValue u ∧ okType types u = true)))
  | .list [c, a, b], path, p, w, hw => by
    rw [ifBranches, List.mem_append, mem_ifBranch types a _ _ _ hw.2.1, mem_ifBranch types b _ _ _ hw.2.2.1]
    constructor
    · intro h
      refine ⟨c, a, b, rfl, ?_⟩
      rcases h with ⟨q, u, hl, rfl, h⟩ | ⟨q, u, hl, rfl, h⟩
      · exact .inl ⟨q, u, hl, by simp, h⟩
      · exact .inr ⟨q, u, hl, by simp, h⟩
    · rintro ⟨c', a', b', heq, h⟩
      simp only [Val.list.injEq, List.cons.injEq, and_true] at heq
      obtain ⟨rfl, rfl, rfl⟩ := heq
      rcases h with ⟨q, u, hl, rfl, h⟩ | ⟨q, u, hl, rfl, h⟩
      · exact .inl ⟨q, u, hl, by simp, h⟩
      · exact .inr ⟨q, u, hl, by simp, h⟩
  | .list [], path, p, w, _ | .list [_], path, p, w, _ | .list [_, _], path, p, w, _
  | .list (_ :: _ :: _ :: _ :: _), path, p, w, _
  | .none, path, p, w, _ | .bool _, path, p, w, _ | .int _, path, p, w, _ | .flt _, path, p, w, _
  | .str _, path, p, w, _ | .dict _, path, p, w, _ => by
    simp [ifBranches]
theorem mem_ifBranch (types : List Ty) : ∀ (v : Val) (path p : Path) (w : Val), v.WF →
    ((w, p) ∈ ifBranch types v path ↔
      ∃ q u, Leaf v q u ∧ p = path ++ q ∧ w = withoutNoValue u ∧ okType types u = true)
  | .dict kvs, path, p, w, hw => by
    rw [ifBranch, List.mem_filter, mem_itemsSafe [] kvs _ _ _ hw]
    constructor
    · rintro ⟨⟨q, u, hl, rfl, rfl, _⟩, hok⟩
      exact ⟨q, u, hl, rfl, rfl, by rw [← okType_without]; exact hok⟩
    · rintro ⟨q, u, hl, rfl, rfl, hok⟩
      exact ⟨⟨q, u, hl, rfl, rfl, by simp [okType]⟩, by rw [← okType_without] at hok; exact hok⟩
  | .none, path, p, w, _ | .bool _, path, p, w, _ | .int _, path, p, w, _ | .flt _, path, p, w, _
  | .str _, path, p, w, _ | .list _, path, p, w, _ => by
    rw [ifBranch]
    · exact single_item (fun ⟨x, hx⟩ => by simp at hx) (by simp [noValue]) rfl
    all_goals (intro kvs h; simp at h)
end

theorem listItemsSafe_cons (types : List Ty) (x : Val) (xs : List Val) (i : Nat) (path : Path) :
    listItemsSafe types (x :: xs) i path =
      ifBranch types x (path ++ [.int i]) ++ listItemsSafe types xs (i + 1) path := by
  cases x <;> simp [listItemsSafe, ifBranch]

theorem mem_listItemsSafe (types : List Ty) : ∀ (xs : List Val) (i : Nat) (path p : Path) (w : Val),
    Val.WFList xs → ((w, p) ∈ listItemsSafe types xs i path ↔
      ∃ (j : Nat) (x : Val) (q : Path) (u : Val), xs[j]? = some x ∧ Leaf x q u ∧
        p = path ++ .int ((i + j : Nat) : Int) :: q ∧ w = withoutNoValue u ∧ okType types u = true)
  | [], i, path, p, w, _ => by simp [listItemsSafe]
  | x :: xs, i, path, p, w, hw => by
    rw [listItemsSafe_cons, List.mem_append, mem_ifBranch types x _ _ _ hw.1, mem_listItemsSafe types xs _ _ _ _ hw.2]
    constructor
    · rintro (⟨q, u, hl, rfl, h⟩ | ⟨j, y, q, u, hy, hl, rfl, h⟩)
      · exact ⟨0, x, q, u, rfl, hl, by simp, h⟩
      · exact ⟨j + 1, y, q, u, by simpa using hy, hl, by simp only [Nat.add_assoc, Nat.add_comm 1], h⟩
    · rintro ⟨j, y, q, u, hy, hl, rfl, h⟩
      cases j with
      | zero =>
        simp only [List.getElem?_cons_zero, Option.some.injEq] at hy
        subst hy
        left; exact ⟨q, u, hl, by simp, h⟩
      | succ j =>
        right
        exact ⟨j, y, q, u, by simpa using hy, hl, by simp only [Nat.add_assoc, Nat.add_comm 1], h⟩

theorem filter_snd_nodup {l : List (Val × Path)} {f : Val × Path → Bool} (h : (l.map Prod.snd).Nodup) :
    ((l.filter f).map Prod.snd).Nodup :=
  List.Nodup.sublist (List.Sublist.map _ List.filter_sublist) h

mutual
theorem itemsSafe_nodup (types : List Ty) : ∀ (kvs : List (Key × Val)) (path : Path), (Val.dict kvs).WF →
    ((itemsSafe types kvs path).map Prod.snd).Nodup
  | [(k, v)], path, hw => by
    rw [itemsSafe]
    split
    · exact ifBranches_nodup types v _ hw.2.1
    · split
      · simp
      · split <;> simp
  | [], path, _ => by
    rw [itemsSafe]
    · split <;> simp
    · intro k v h; simp at h
  | (a :: b :: rest), path, _ => by
    rw [itemsSafe]
    · split <;> simp
    · intro k v h; simp at h
theorem ifBranches_nodup (types : List Ty) : ∀ (v : Val) (path : Path), v.WF →
    ((ifBranches types v path).map Prod.snd).Nodup
  | .list [c, a, b], path, hw => by
    rw [ifBranches, List.map_append, List.nodup_append]
    refine ⟨ifBranch_nodup types a _ hw.2.1, ifBranch_nodup types b _ hw.2.2.1, ?_⟩
    rintro x hx y hy rfl
    obtain ⟨⟨w, p⟩, h1, h2⟩ := List.mem_map.1 hx
    obtain ⟨⟨w', p'⟩, h3, h4⟩ := List.mem_map.1 hy
    obtain ⟨q, _, _, hq, _⟩ := (mem_ifBranch types a _ _ _ hw.2.1).1 h1
    obtain ⟨q', _, _, hq', _⟩ := (mem_ifBranch types b _ _ _ hw.2.2.1).1 h3
    simp only at h2 h4
    rw [h2] at hq
    rw [h4, hq, List.append_assoc, List.append_assoc] at hq'
    have := List.append_cancel_left hq'
    simp at this
  | .list [], path, _ | .list [_], path, _ | .list [_, _], path, _
  | .list (_ :: _ :: _ :: _ :: _), path, _
  | .none, path, _ | .bool _, path, _ | .int _, path, _ | .flt _, path, _
  | .str _, path, _ | .dict _, path, _ => by
    simp [ifBranches]
theorem ifBranch_nodup (types : List Ty) : ∀ (v : Val) (path : Path), v.WF →
    ((ifBranch types v path).map Prod.snd).Nodup
  | .dict kvs, path, hw => by
    rw [ifBranch]
    exact filter_snd_nodup (itemsSafe_nodup [] kvs path hw)
  | .none, path, _ | .bool _, path, _ | .int _, path, _ | .flt _, path, _
  | .str _, path, _ | .list _, path, _ => by
    rw [ifBranch]
    · split <;> simp
    all_goals (intro kvs h; simp at h)
end

end CfnLint
