import Verif.Model.Template
import Verif.Spec.Template
import Verif.Lemmas.Dict
/- Lemmas for `search_deep_keys`. -/
namespace CfnLint
open Spec

theorem at_nil {v w : Val} : At v [] w ↔ v = w := by
  constructor
  · intro h; cases h; rfl
  · rintro rfl; exact .here

/-- what a search of `v` contributes, in terms of the paths below -/
def Found (text : String) (v : Val) (q : Path) (w : Val) : Prop :=
  At v q w ∧ ∃ r, q = r ++ [.str text]

theorem found_key {text : String} {k : Key} {v : Val} {q : Path} {w : Val} :
    (∃ r, k :: q = r ++ [.str text]) ∧ At v q w ↔ (k = .str text ∧ q = [] ∧ v = w) ∨ Found text v q w := by
  constructor
  · rintro ⟨⟨r, hr⟩, ha⟩
    cases r with
    | nil =>
      simp only [List.nil_append, List.cons.injEq] at hr
      obtain ⟨rfl, rfl⟩ := hr
      exact .inl ⟨rfl, rfl, at_nil.1 ha⟩
    | cons x r =>
      simp only [List.cons_append, List.cons.injEq] at hr
      exact .inr ⟨ha, r, hr.2⟩
  · rintro (⟨rfl, rfl, rfl⟩ | ⟨ha, r, rfl⟩)
    · exact ⟨⟨[], rfl⟩, .here⟩
    · exact ⟨⟨k :: r, rfl⟩, ha⟩

mutual
theorem mem_searchVal (text : String) : ∀ (v : Val) (path p : Path) (w : Val),
    (p, w) ∈ searchVal text v path ↔ ∃ q, p = path ++ q ∧ Found text v q w
  | .dict kvs, path, p, w => by
    rw [searchVal, mem_searchDict]
    constructor
    · rintro ⟨k, v, q, hm, rfl, h⟩
      exact ⟨k :: q, rfl, .key hm h.2, h.1⟩
    · rintro ⟨q, rfl, ha, hr⟩
      cases ha with
      | here => obtain ⟨r, hr⟩ := hr; simp at hr
      | key hm ha => exact ⟨_, _, _, hm, rfl, hr, ha⟩
  | .list xs, path, p, w => by
    rw [searchVal, mem_searchList]
    constructor
    · rintro ⟨i, x, q, hx, rfl, h⟩
      refine ⟨.int i :: q, by simp, .idx hx h.1, ?_⟩
      obtain ⟨r, rfl⟩ := h.2
      exact ⟨.int i :: r, rfl⟩
    · rintro ⟨q, rfl, ha, r, hr⟩
      cases ha with
      | here => simp at hr
      | idx hx ha =>
        refine ⟨_, _, _, hx, by simp, ha, ?_⟩
        cases r with
        | nil => simp at hr
        | cons y r => simp only [List.cons_append, List.cons.injEq] at hr; exact ⟨r, hr.2⟩
  | .none, path, p, w | .bool _, path, p, w | .int _, path, p, w | .flt _, path, p, w
  | .str _, path, p, w => by
    simp only [searchVal, List.not_mem_nil, false_iff]
    rintro ⟨q, rfl, ha, r, hr⟩
    cases ha
    simp at hr
theorem mem_searchDict (text : String) : ∀ (kvs : List (Key × Val)) (path p : Path) (w : Val),
    (p, w) ∈ searchDict text kvs path ↔ ∃ k v q, (k, v) ∈ kvs ∧ p = path ++ k :: q ∧
      (∃ r, k :: q = r ++ [.str text]) ∧ At v q w
  | [], path, p, w => by simp [searchDict]
  | (k, v) :: rest, path, p, w => by
    rw [searchDict, List.mem_append, List.mem_append, mem_searchVal text v, mem_searchDict text rest]
    constructor
    · rintro ((h | ⟨q, rfl, h⟩) | ⟨k', v', q, hm, h⟩)
      · split at h
        · rename_i hk
          simp only [List.mem_singleton, Prod.mk.injEq] at h
          obtain ⟨rfl, rfl⟩ := h
          exact ⟨k, w, [], List.mem_cons_self, rfl, ⟨[], by rw [hk]; rfl⟩, .here⟩
        · cases h
      · exact ⟨k, v, q, List.mem_cons_self, by simp, found_key.2 (.inr h)⟩
      · exact ⟨k', v', q, List.mem_cons_of_mem _ hm, h⟩
    · rintro ⟨k', v', q, hm, hp, h⟩
      rcases List.mem_cons.1 hm with heq | hm
      · injection heq with h1 h2
        subst h1 h2
        rcases found_key.1 h with ⟨rfl, rfl, rfl⟩ | h
        · left; left; simp [hp]
        · left; right; exact ⟨q, by simp [hp], h⟩
      · right; exact ⟨k', v', q, hm, hp, h⟩
theorem mem_searchList (text : String) : ∀ (xs : List Val) (i : Nat) (path p : Path) (w : Val),
    (p, w) ∈ searchList text xs i path ↔ ∃ (j : Nat) (x : Val) (q : Path), xs[j]? = some x ∧
      p = path ++ .int ((i + j : Nat) : Int) :: q ∧ Found text x q w
  | [], i, path, p, w => by simp [searchList]
  | x :: xs, i, path, p, w => by
    rw [searchList, List.mem_append, mem_searchVal text x, mem_searchList text xs]
    constructor
    · rintro (⟨q, rfl, h⟩ | ⟨j, y, q, hy, rfl, h⟩)
      · exact ⟨0, x, q, rfl, by simp, h⟩
      · exact ⟨j + 1, y, q, by simpa using hy, by simp only [Nat.add_assoc, Nat.add_comm 1], h⟩
    · rintro ⟨j, y, q, hy, rfl, h⟩
      cases j with
      | zero =>
        simp only [List.getElem?_cons_zero, Option.some.injEq] at hy
        subst hy
        left; exact ⟨q, by simp, h⟩
      | succ j =>
        right
        exact ⟨j, y, q, by simpa using hy, by simp only [Nat.add_assoc, Nat.add_comm 1], h⟩
end

theorem searchVal_prefix {text : String} {v : Val} {path p : Path} {w : Val}
    (h : (p, w) ∈ searchVal text v path) : ∃ q, p = path ++ q := by
  obtain ⟨q, hq, _⟩ := (mem_searchVal text v path p w).1 h
  exact ⟨q, hq⟩

mutual
theorem searchVal_nodup (text : String) : ∀ (v : Val) (path : Path), v.WF →
    ((searchVal text v path).map Prod.fst).Nodup
  | .dict kvs, path, h => by
    rw [searchVal]
    exact searchDict_nodup text kvs path h.1 h.2
  | .list xs, path, h => by
    rw [searchVal]
    exact searchList_nodup text xs 0 path h
  | .none, path, h | .bool _, path, h | .int _, path, h | .flt _, path, h | .str _, path, h => by
    simp [searchVal]
theorem searchDict_nodup (text : String) : ∀ (kvs : List (Key × Val)) (path : Path),
    (kvs.map Prod.fst).Nodup → Val.WFDict kvs → ((searchDict text kvs path).map Prod.fst).Nodup
  | [], path, _, _ => by simp [searchDict]
  | (k, v) :: rest, path, hn, hw => by
    rw [searchDict, List.map_append, List.map_append]
    rw [List.map_cons, List.nodup_cons] at hn
    have h1 := searchVal_nodup text v (path ++ [k]) hw.1
    have h2 := searchDict_nodup text rest path hn.2 hw.2
    rw [List.nodup_append, List.nodup_append]
    refine ⟨⟨by split <;> simp, h1, ?_⟩, h2, ?_⟩
    · intro a ha b hb heq
      subst heq
      split at ha
      · simp only [List.map_cons, List.map_nil, List.mem_singleton] at ha
        subst ha
        obtain ⟨⟨p, w⟩, hm, hp⟩ := List.mem_map.1 hb
        obtain ⟨q, hq, _, r, hr⟩ := (mem_searchVal text v _ p w).1 hm
        simp only at hp
        rw [hp] at hq
        have : q = [] := by simpa using hq
        subst this
        simp at hr
      · cases ha
    · intro a ha b hb heq
      subst heq
      obtain ⟨⟨p, w⟩, hm, hp⟩ := List.mem_map.1 hb
      obtain ⟨k', v', q, hk', hpq, _⟩ := (mem_searchDict text rest _ p w).1 hm
      simp only at hp
      subst hp
      have hk : ∃ q', p = path ++ k :: q' := by
        rcases List.mem_append.1 ha with ha | ha
        · split at ha
          · simp only [List.map_cons, List.map_nil, List.mem_singleton] at ha
            exact ⟨[], ha⟩
          · cases ha
        · obtain ⟨⟨p', w'⟩, hm', hp'⟩ := List.mem_map.1 ha
          obtain ⟨q', hq'⟩ := searchVal_prefix hm'
          simp only at hp'
          exact ⟨q', by rw [← hp', hq']; simp⟩
      obtain ⟨q', hq'⟩ := hk
      rw [hq'] at hpq
      have := List.append_cancel_left hpq
      injection this with hkk _
      subst hkk
      exact hn.1 (List.mem_map.2 ⟨_, hk', rfl⟩)
theorem searchList_nodup (text : String) : ∀ (xs : List Val) (i : Nat) (path : Path), Val.WFList xs →
    ((searchList text xs i path).map Prod.fst).Nodup
  | [], i, path, _ => by simp [searchList]
  | x :: xs, i, path, hw => by
    rw [searchList, List.map_append, List.nodup_append]
    refine ⟨searchVal_nodup text x _ hw.1, searchList_nodup text xs (i + 1) path hw.2, ?_⟩
    intro a ha b hb heq
    subst heq
    obtain ⟨⟨p, w⟩, hm, hp⟩ := List.mem_map.1 ha
    obtain ⟨⟨p', w'⟩, hm', hp'⟩ := List.mem_map.1 hb
    simp only at hp hp'
    subst hp
    obtain ⟨q, hq⟩ := searchVal_prefix hm
    obtain ⟨j, y, q', _, hq', _⟩ := (mem_searchList text xs _ _ p' w').1 hm'
    rw [hp', hq, List.append_assoc] at hq'
    have := List.append_cancel_left hq'
    simp only [List.singleton_append, List.cons.injEq, Key.int.injEq] at this
    omega
end

end CfnLint
