import Verif.Spec.Traverse
import Verif.Lemmas.Dict
import Verif.Lemmas.Leaves
/- Lemmas about the traversal of resource properties. -/
namespace CfnLint
open Spec

theorem specName_some (rt t : String) : specName rt (some t) = registeredName rt t := by
  unfold specName registeredName
  simp

theorem typeOf_eq {S : TypeSpecs} {rt t : String} : dlookup (specName rt (some t)) S.propertyTypes = typeOf S rt t := by
  rw [specName_some]; rfl

theorem specName_none {S : TypeSpecs} {rt : String} (h : typeOf S rt "None" = none) :
    dlookup (specName rt none) S.propertyTypes = none := h

theorem mem_visitSelf {name : String} {path : Path} {v : Val} {x : Visit} :
    x ∈ visitSelf name path v ↔ ¬ IsIf v ∧ x = ⟨path, v, name⟩ := by
  unfold visitSelf
  split
  · rename_i k w
    by_cases hk : k = .str "Fn::If"
    · subst hk
      simp [IsIf]
    · have : ¬ IsIf (.dict [(k, w)]) := by
        rintro ⟨w', e⟩
        simp only [Val.dict.injEq, List.cons.injEq, Prod.mk.injEq] at e
        exact hk e.1.1
      simp [hk, this]
  · rename_i hne
    have : ¬ IsIf v := fun ⟨w, e⟩ => hne _ _ e
    simp [this]

theorem mem_visitDecl {S : TypeSpecs} {rt : String} {x : Visit} {d : PropDecl} {flag : Bool} {path : Path} {v : Val} :
    x ∈ visitDecl S rt d flag path v ↔
      (∃ xs, v = .list xs ∧ d.type = some "List" ∧ flag = false ∧ x ∈ visitItems S rt d.itemType path 0 xs) ∨
      (∃ t, d.type = some t ∧ ¬ (t = "List" ∧ flag = false) ∧ (∃ kvs, v = .dict kvs) ∧
        x ∈ visitType S rt (some t) path v) := by
  rw [visitDecl.eq_def]
  by_cases hc : d.type = some "List" ∧ flag = false
  · rw [if_pos hc]
    cases v with
    | list xs =>
      simp only [Val.list.injEq]
      constructor
      · intro h; exact .inl ⟨xs, rfl, hc.1, hc.2, h⟩
      · rintro (⟨_, rfl, _, _, h⟩ | ⟨t, h1, h2, ⟨_, h3⟩, _⟩)
        · exact h
        · cases h3
    | dict kvs =>
      simp only [List.not_mem_nil, false_iff]
      rintro (⟨_, h, _⟩ | ⟨t, h1, h2, _⟩)
      · cases h
      · rw [hc.1] at h1; cases h1; exact h2 ⟨rfl, hc.2⟩
    | _ => simp
  · rw [if_neg hc]
    cases hd : d.type with
    | none => simp
    | some t =>
      have hc' : ¬ (t = "List" ∧ flag = false) := fun ⟨h1, h2⟩ => hc ⟨by rw [hd, h1], h2⟩
      cases v with
      | dict kvs =>
        simp only
        constructor
        · intro h; exact .inr ⟨t, rfl, hc', ⟨kvs, rfl⟩, h⟩
        · rintro (⟨_, h, _⟩ | ⟨_, h1, _, _, h⟩)
          · cases h
          · cases h1; exact h
      | list xs =>
        simp only [List.not_mem_nil, false_iff]
        rintro (⟨_, _, h1, h2, _⟩ | ⟨_, _, _, ⟨_, h⟩, _⟩)
        · cases h1; exact hc' ⟨rfl, h2⟩
        · cases h
      | _ => simp

/-! ### Where the visited values stand -/

mutual
theorem visitType_at {S : TypeSpecs} {rt : String} {x : Visit} (t : Option String) (path : Path) (v : Val)
    (h : x ∈ visitType S rt t path v) : ∃ q, x.path = path ++ q ∧ At v q x.value := by
  rw [visitType] at h
  split at h
  · cases h
  · rename_i d hd
    have h' := List.mem_append.1 h
    clear h
    rcases h' with h | h
    · obtain ⟨_, rfl⟩ := mem_visitSelf.1 h
      exact ⟨[], by simp, .here⟩
    · split at h
      · split at h
        · split at h
          · rename_i xs
            obtain ⟨j, q, y, _, h1, h2, h3⟩ := visitItems_at _ path 0 xs h
            exact ⟨.int (j : Nat) :: q, h1, .idx (i := j) (by simpa using h2) h3⟩
          · cases h
        · cases h
      · split at h
        · rename_i kvs
          obtain ⟨k, w, q, h1, h2, h3⟩ := visitProps_at _ _ path kvs h
          exact ⟨k :: q, h1, .key h2 h3⟩
        · cases h
termination_by (sizeOf v, 1)
theorem visitItems_at {S : TypeSpecs} {rt : String} {x : Visit} (t : Option String) (path : Path) (i : Nat) (xs : List Val)
    (h : x ∈ visitItems S rt t path i xs) :
    ∃ (j : Nat) (q : Path) (y : Val), i ≤ j ∧ x.path = path ++ .int (j : Nat) :: q ∧ xs[j - i]? = some y ∧ At y q x.value := by
  cases xs with
  | nil => rw [visitItems] at h; cases h
  | cons y rest =>
    rw [visitItems] at h
    rcases List.mem_append.1 h with h | h
    · obtain ⟨q, h1, h2⟩ := visitType_at _ _ y h
      exact ⟨i, q, y, Nat.le_refl _, by rw [h1]; simp, by simp, h2⟩
    · obtain ⟨j, q, z, hj, h1, h2, h3⟩ := visitItems_at _ _ (i + 1) rest h
      refine ⟨j, q, z, by omega, h1, ?_, h3⟩
      have : j - i = (j - (i + 1)) + 1 := by omega
      rw [this, List.getElem?_cons_succ]
      exact h2
termination_by (sizeOf xs, 0)
theorem visitProps_at {S : TypeSpecs} {rt : String} {x : Visit} (t : Option String) (ps : List (Key × PropDecl)) (path : Path) :
    ∀ (kvs : List (Key × Val)), x ∈ visitProps S rt t ps path kvs →
    ∃ k w q, x.path = path ++ k :: q ∧ (k, w) ∈ kvs ∧ At w q x.value
  | [], h => by rw [visitProps] at h; cases h
  | (k, v) :: rest, h => by
    rw [visitProps] at h
    rcases List.mem_append.1 h with h | h
    · split at h
      · split at h
        · obtain ⟨q, h1, h2⟩ := visitIf_at _ _ v h
          exact ⟨k, v, q, by rw [h1]; simp, List.mem_cons_self, h2⟩
        · cases h
      · obtain ⟨q, h1, h2⟩ := visitDecl_at _ _ _ v h
        exact ⟨k, v, q, by rw [h1]; simp, List.mem_cons_self, h2⟩
    · obtain ⟨k', w, q, h1, h2, h3⟩ := visitProps_at _ _ _ rest h
      exact ⟨k', w, q, h1, List.mem_cons_of_mem _ h2, h3⟩
termination_by kvs => (sizeOf kvs, 0)
theorem visitIf_at {S : TypeSpecs} {rt : String} {x : Visit} (t : Option String) (path : Path) (v : Val)
    (h : x ∈ visitIf S rt t path v) : ∃ q, x.path = path ++ q ∧ At v q x.value := by
  rw [visitIf.eq_def] at h
  split at h
  · rename_i c a b
    rcases List.mem_append.1 h with h | h
    · obtain ⟨q, h1, h2⟩ := visitBranch_at _ _ a h
      exact ⟨.int (1 : Nat) :: q, by rw [h1]; simp, .idx (i := 1) rfl h2⟩
    · obtain ⟨q, h1, h2⟩ := visitBranch_at _ _ b h
      exact ⟨.int (2 : Nat) :: q, by rw [h1]; simp, .idx (i := 2) rfl h2⟩
  · cases h
termination_by (sizeOf v, 0)
theorem visitBranch_at {S : TypeSpecs} {rt : String} {x : Visit} (t : Option String) (path : Path) (v : Val)
    (h : x ∈ visitBranch S rt t path v) : ∃ q, x.path = path ++ q ∧ At v q x.value := by
  rw [visitBranch.eq_def] at h
  split at h
  · rename_i xs
    obtain ⟨j, q, y, _, h1, h2, h3⟩ := visitItems_at _ path 0 xs h
    exact ⟨.int (j : Nat) :: q, h1, .idx (i := j) (by simpa using h2) h3⟩
  · exact visitType_at _ _ v h
termination_by (sizeOf v, 2)
theorem visitDecl_at {S : TypeSpecs} {rt : String} {x : Visit} (d : PropDecl) (flag : Bool) (path : Path) (v : Val)
    (h : x ∈ visitDecl S rt d flag path v) : ∃ q, x.path = path ++ q ∧ At v q x.value := by
  rcases mem_visitDecl.1 h with ⟨xs, rfl, _, _, h⟩ | ⟨t, _, _, ⟨kvs, hv⟩, h⟩
  · obtain ⟨j, q, y, _, h1, h2, h3⟩ := visitItems_at _ path 0 xs h
    exact ⟨.int (j : Nat) :: q, h1, .idx (i := j) (by simpa using h2) h3⟩
  · exact visitType_at _ _ v h
termination_by (sizeOf v, 2)
end


/-! ### Unfolding -/

theorem mem_visitType {S : TypeSpecs} {rt : String} {x : Visit} {t : Option String} {path : Path} {v : Val} :
    x ∈ visitType S rt t path v ↔ ∃ d, dlookup (specName rt t) S.propertyTypes = some d ∧
      ((¬ IsIf v ∧ x = ⟨path, v, specName rt t⟩) ∨
       (d.properties = [] ∧ d.type = some "List" ∧ ∃ xs, v = .list xs ∧ x ∈ visitItems S rt d.itemType path 0 xs) ∨
       (d.properties ≠ [] ∧ ∃ kvs, v = .dict kvs ∧ x ∈ visitProps S rt t d.properties path kvs)) := by
  rw [visitType]
  cases hd : dlookup (specName rt t) S.propertyTypes with
  | none => simp
  | some d =>
    simp only [List.mem_append, mem_visitSelf, Option.some.injEq, exists_eq_left']
    apply or_congr Iff.rfl
    by_cases he : d.properties = []
    · have : d.properties.isEmpty = true := by rw [he]; rfl
      rw [if_pos this]
      simp only [he, true_and, ne_eq, not_true_eq_false, false_and, or_false]
      by_cases hl : d.type = some "List"
      · rw [if_pos hl]
        simp only [hl, true_and]
        cases v <;> simp
      · rw [if_neg hl]; simp [hl]
    · have : ¬ d.properties.isEmpty = true := by simpa using he
      rw [if_neg this]
      simp only [he, false_and, ne_eq, not_false_eq_true, true_and, false_or]
      cases v <;> simp

theorem mem_visitItems {S : TypeSpecs} {rt : String} {x : Visit} {t : Option String} {path : Path} :
    ∀ {xs : List Val} {i : Nat}, x ∈ visitItems S rt t path i xs ↔
      ∃ j y, xs[j]? = some y ∧ x ∈ visitType S rt t (path ++ [.int ((i + j : Nat) : Int)]) y := by
  intro xs
  induction xs with
  | nil => intro i; rw [visitItems]; simp
  | cons a xs ih =>
    intro i
    rw [visitItems, List.mem_append, ih]
    constructor
    · rintro (h | ⟨j, y, h1, h2⟩)
      · exact ⟨0, a, rfl, h⟩
      · refine ⟨j + 1, y, h1, ?_⟩
        have : i + (j + 1) = i + 1 + j := by omega
        rw [this]
        exact h2
    · rintro ⟨j, y, h1, h2⟩
      cases j with
      | zero =>
        simp only [List.getElem?_cons_zero, Option.some.injEq] at h1
        subst h1
        exact .inl h2
      | succ j =>
        refine .inr ⟨j, y, h1, ?_⟩
        have : i + (j + 1) = i + 1 + j := by omega
        rw [this] at h2
        exact h2

theorem mem_visitProps {S : TypeSpecs} {rt : String} {x : Visit} {t : Option String} {ps : List (Key × PropDecl)} {path : Path} :
    ∀ {kvs : List (Key × Val)}, x ∈ visitProps S rt t ps path kvs ↔
      ∃ k v, (k, v) ∈ kvs ∧ ((dlookup k ps = none ∧ k = .str "Fn::If" ∧ x ∈ visitIf S rt t (path ++ [k]) v) ∨
        ∃ d, dlookup k ps = some d ∧ x ∈ visitDecl S rt d (dhas (.str "PrimitiveItemType") ps) (path ++ [k]) v) := by
  intro kvs
  induction kvs with
  | nil => rw [visitProps]; simp
  | cons kv rest ih =>
    obtain ⟨k, v⟩ := kv
    rw [visitProps, List.mem_append, ih]
    have hone : (x ∈ (match dlookup k ps with
          | none => if k = Key.str "Fn::If" then visitIf S rt t (path ++ [k]) v else []
          | some d => visitDecl S rt d (dhas (Key.str "PrimitiveItemType") ps) (path ++ [k]) v)) ↔
        ((dlookup k ps = none ∧ k = .str "Fn::If" ∧ x ∈ visitIf S rt t (path ++ [k]) v) ∨
        ∃ d, dlookup k ps = some d ∧ x ∈ visitDecl S rt d (dhas (Key.str "PrimitiveItemType") ps) (path ++ [k]) v) := by
      cases hd : dlookup k ps with
      | none =>
        simp only [true_and]
        by_cases hk : k = .str "Fn::If"
        · rw [if_pos hk]; simp [hk]
        · rw [if_neg hk]; simp [hk]
      | some d => simp
    refine (or_congr hone Iff.rfl).trans ?_
    constructor
    · rintro (h | ⟨k', v', h1, h2⟩)
      · exact ⟨k, v, List.mem_cons_self, h⟩
      · exact ⟨k', v', List.mem_cons_of_mem _ h1, h2⟩
    · rintro ⟨k', v', h1, h2⟩
      rcases List.mem_cons.1 h1 with e | h1
      · cases e; exact .inl h2
      · exact .inr ⟨k', v', h1, h2⟩

theorem mem_visitTop {S : TypeSpecs} {rt : String} {x : Visit} {ps : List (Key × PropDecl)} {path : Path} :
    ∀ {kvs : List (Key × Val)}, x ∈ visitTop S rt ps path kvs ↔
      ∃ k v d, (k, v) ∈ kvs ∧ dlookup k ps = some d ∧
        x ∈ visitDecl S rt d (dhas (Key.str "PrimitiveItemType") ps) (path ++ [k]) v := by
  intro kvs
  induction kvs with
  | nil => rw [visitTop]; simp
  | cons kv rest ih =>
    obtain ⟨k, v⟩ := kv
    rw [visitTop, List.mem_append, ih]
    have hone : (x ∈ (match dlookup k ps with
          | none => []
          | some d => visitDecl S rt d (dhas (Key.str "PrimitiveItemType") ps) (path ++ [k]) v)) ↔
        ∃ d, dlookup k ps = some d ∧ x ∈ visitDecl S rt d (dhas (Key.str "PrimitiveItemType") ps) (path ++ [k]) v := by
      cases hd : dlookup k ps <;> simp
    refine (or_congr hone Iff.rfl).trans ?_
    constructor
    · rintro (⟨d, h⟩ | ⟨k', v', d, h1, h2⟩)
      · exact ⟨k, v, d, List.mem_cons_self, h⟩
      · exact ⟨k', v', d, List.mem_cons_of_mem _ h1, h2⟩
    · rintro ⟨k', v', d, h1, h2⟩
      rcases List.mem_cons.1 h1 with e | h1
      · cases e; exact .inl ⟨d, h2⟩
      · exact .inr ⟨k', v', d, h1, h2⟩

theorem mem_visitIf {S : TypeSpecs} {rt : String} {x : Visit} {t : Option String} {path : Path} {v : Val} :
    x ∈ visitIf S rt t path v ↔ ∃ c a b, v = .list [c, a, b] ∧
      (x ∈ visitBranch S rt t (path ++ [.int 1]) a ∨ x ∈ visitBranch S rt t (path ++ [.int 2]) b) := by
  rw [visitIf.eq_def]
  split
  · rename_i c a b
    rw [List.mem_append]
    constructor
    · intro h; exact ⟨c, a, b, rfl, h⟩
    · rintro ⟨_, _, _, e, h⟩; cases e; exact h
  · rename_i hne
    simp only [List.not_mem_nil, false_iff]
    rintro ⟨c, a, b, e, _⟩
    exact hne c a b e

theorem mem_visitBranch {S : TypeSpecs} {rt : String} {x : Visit} {t : Option String} {path : Path} {v : Val} :
    x ∈ visitBranch S rt t path v ↔
      (∃ xs, v = .list xs ∧ x ∈ visitItems S rt t path 0 xs) ∨ ((∀ xs, v ≠ .list xs) ∧ x ∈ visitType S rt t path v) := by
  rw [visitBranch.eq_def]
  split
  · rename_i xs; simp
  · rename_i hne
    constructor
    · intro h; exact .inr ⟨fun xs e => hne xs e, h⟩
    · rintro (⟨xs, e, _⟩ | ⟨_, h⟩)
      · exact absurd e (hne xs)
      · exact h

theorem mem_visitResource {S : TypeSpecs} {rt : String} {x : Visit} {props : List (Key × Val)} {path : Path}
    (hw : (Val.dict props).WF) :
    x ∈ visitResource S rt props path ↔ ∃ ps q kvs k v d, dlookup rt S.resourceTypes = some ps ∧
      Leaf (.dict props) q (.dict kvs) ∧ (k, v) ∈ kvs ∧ v ≠ noValue ∧ dlookup k ps = some d ∧
      x ∈ visitDecl S rt d (dhas (.str "PrimitiveItemType") ps) (path ++ q ++ [k]) v := by
  unfold visitResource
  cases hp : dlookup rt S.resourceTypes with
  | none => simp
  | some ps =>
    simp only [List.mem_flatMap]
    constructor
    · rintro ⟨⟨w, p⟩, hm, hx⟩
      obtain ⟨q, u, hl, rfl, rfl, hok⟩ := (mem_itemsSafe [.dict] props path p w hw).1 hm
      dsimp only at hx
      cases u with
      | dict kvs =>
        simp only [withoutNoValue] at hx
        obtain ⟨k, v, d, h1, h2, h3⟩ := mem_visitTop.1 hx
        obtain ⟨h1, hnv⟩ := List.mem_filter.1 h1
        exact ⟨ps, q, kvs, k, v, d, rfl, hl, h1, by simpa using hnv, h2, h3⟩
      | _ => cases hx
    · rintro ⟨_, q, kvs, k, v, d, e, hl, h1, hnv, h2, h3⟩
      cases e
      refine ⟨(withoutNoValue (.dict kvs), path ++ q), (mem_itemsSafe [.dict] props path _ _ hw).2
        ⟨q, .dict kvs, hl, rfl, rfl, rfl⟩, ?_⟩
      simp only [withoutNoValue]
      exact mem_visitTop.2 ⟨k, v, d, List.mem_filter.2 ⟨h1, by simpa using hnv⟩, h2, h3⟩

/-! ### Everything visited has the type it is visited for -/

theorem val_size_lt {kvs : List (Key × Val)} {k : Key} {v : Val} (h : (k, v) ∈ kvs) : sizeOf v < sizeOf (Val.dict kvs) := by
  have := List.sizeOf_lt_of_mem h
  simp only [Prod.mk.sizeOf_spec, Val.dict.sizeOf_spec] at *
  omega

theorem item_size_lt {xs : List Val} {i : Nat} {v : Val} (h : xs[i]? = some v) : sizeOf v < sizeOf (Val.list xs) := by
  have := List.sizeOf_lt_of_mem (List.mem_of_getElem? h)
  simp only [Val.list.sizeOf_spec] at *
  omega

/-- no branch of an `Fn::If` at a single position is a list, and `Fn::If` stands alone there -/
structure Tidy (S : TypeSpecs) (rt : String) (ps : List (Key × PropDecl)) (root : Val) (base : Path) : Prop where
  branches : ∀ t p c a b, Pos S rt ps root base (.single t) p (fnIf c a b) →
    (∀ xs, a ≠ .list xs) ∧ (∀ xs, b ≠ .list xs)
  alone : ∀ t p kvs w, Pos S rt ps root base (.single t) p (.dict kvs) → (Key.str "Fn::If", w) ∈ kvs → IsIf (.dict kvs)

/-- a visit is of the right type -/
def GoodVisit (S : TypeSpecs) (rt : String) (ps : List (Key × PropDecl)) (root : Val) (base : Path) (x : Visit) : Prop :=
  ∃ t d, Pos S rt ps root base (.single t) x.path x.value ∧ x.typeName = registeredName rt t ∧ typeOf S rt t = some d ∧
    ¬ IsIf x.value

theorem no_primitive_flag {ps : List (Key × PropDecl)}
    (h : ∀ kd ∈ ps, ∃ s, kd.1 = .str s ∧ s ≠ "Fn::If" ∧ s ≠ "PrimitiveItemType") :
    dhas (.str "PrimitiveItemType") ps = false := by
  unfold dhas
  cases hd : dlookup (Key.str "PrimitiveItemType") ps with
  | none => rfl
  | some d =>
    obtain ⟨s, h1, _, h2⟩ := h _ (dlookup_mem hd)
    dsimp only at h1
    cases h1
    exact absurd rfl h2

theorem decl_good {S : TypeSpecs} {rt : String} {ps : List (Key × PropDecl)} {root : Val} {base : Path} {x : Visit}
    (hs : Sane S rt ps) {pd : PropDecl} {p : Path} {v : Val}
    (ih : ∀ w, sizeOf w ≤ sizeOf v → ∀ t p, Pos S rt ps root base (.single t) p w → x ∈ visitType S rt (some t) p w →
      GoodVisit S rt ps root base x)
    (hp : Pos S rt ps root base (declOf pd) p v) (h : x ∈ visitDecl S rt pd false p v) :
    GoodVisit S rt ps root base x := by
  rcases mem_visitDecl.1 h with ⟨xs, rfl, hl, _, hx⟩ | ⟨t, ht, hne, ⟨kvs, rfl⟩, hx⟩
  · obtain ⟨j, y, hy, hx⟩ := mem_visitItems.1 hx
    cases hu : pd.itemType with
    | none =>
      rw [hu] at hx
      obtain ⟨d, hd, _⟩ := mem_visitType.1 hx
      rw [specName_none hs.noNone] at hd
      cases hd
    | some u =>
      rw [hu] at hx
      have hdecl : declOf pd = .list u := by simp [declOf, hl, hu]
      rw [hdecl] at hp
      refine ih y (Nat.le_of_lt (item_size_lt hy)) u _ (.item hp hy) ?_
      simpa using hx
  · have hlist : t ≠ "List" := fun e => hne ⟨e, rfl⟩
    by_cases hm : t = "Map"
    · subst hm
      obtain ⟨d, hd, _⟩ := mem_visitType.1 hx
      rw [typeOf_eq, hs.noMap] at hd
      cases hd
    · have hdecl : declOf pd = .single t := by simp [declOf, ht, hlist, hm]
      rw [hdecl] at hp
      exact ih _ (Nat.le_refl _) t p hp hx

theorem type_good {S : TypeSpecs} {rt : String} {ps : List (Key × PropDecl)} {root : Val} {base : Path} {x : Visit}
    (hs : Sane S rt ps) (ht : Tidy S rt ps root base) : ∀ (n : Nat) (v : Val), sizeOf v ≤ n → ∀ t p,
    Pos S rt ps root base (.single t) p v → x ∈ visitType S rt (some t) p v → GoodVisit S rt ps root base x := by
  intro n
  induction n with
  | zero =>
    intro v hv
    exfalso
    cases v <;> simp at hv
  | succ n ih =>
    intro v hv t p hp hx
    obtain ⟨d, hd, h⟩ := mem_visitType.1 hx
    have hd' : typeOf S rt t = some d := by rw [← typeOf_eq]; exact hd
    clear hx
    rcases h with ⟨hif, rfl⟩ | ⟨he, hl, xs, rfl, hx⟩ | ⟨he, kvs, rfl, hx⟩
    · exact ⟨t, d, hp, specName_some rt t, hd', hif⟩
    · obtain ⟨j, y, hy, hx⟩ := mem_visitItems.1 hx
      cases hu : d.itemType with
      | none =>
        rw [hu] at hx
        obtain ⟨d, hd, _⟩ := mem_visitType.1 hx
        rw [specName_none hs.noNone] at hd
        cases hd
      | some u =>
        rw [hu] at hx
        have := item_size_lt hy
        refine ih y (by omega) u _ (.item (.listType hp hd' he hl hu) hy) ?_
        simpa using hx
    · obtain ⟨k, w, hk, h⟩ := mem_visitProps.1 hx
      clear hx
      have hlt := val_size_lt hk
      have hkeys := hs.typeKeys _ (dlookup_mem hd)
      rcases h with ⟨_, rfl, hx⟩ | ⟨pd, hpd, hx⟩
      · obtain ⟨c, a, b, e1, hx2⟩ := mem_visitIf.1 hx
        clear hx
        subst e1
        have hx := hx2
        clear hx2
        obtain ⟨w', e⟩ := ht.alone t p kvs _ hp hk
        simp only [Val.dict.injEq] at e
        subst e
        simp only [List.mem_singleton, Prod.mk.injEq, true_and] at hk
        subst hk
        obtain ⟨ha, hb⟩ := ht.branches t p c a b hp
        rcases hx with hx | hx
        · rcases mem_visitBranch.1 hx with ⟨xs, e, _⟩ | ⟨_, hx⟩
          · exact absurd e (ha xs)
          · have : sizeOf a < sizeOf (Val.list [c, a, b]) := item_size_lt (i := 1) rfl
            refine ih a (by omega) t _ (.left hp) ?_
            simpa using hx
        · rcases mem_visitBranch.1 hx with ⟨xs, e, _⟩ | ⟨_, hx⟩
          · exact absurd e (hb xs)
          · have : sizeOf b < sizeOf (Val.list [c, a, b]) := item_size_lt (i := 2) rfl
            refine ih b (by omega) t _ (.right hp) ?_
            simpa using hx
      · rw [no_primitive_flag hkeys] at hx
        have hnif : ¬ IsIf (.dict kvs) := by
          rintro ⟨w', e⟩
          simp only [Val.dict.injEq] at e
          subst e
          simp only [List.mem_singleton, Prod.mk.injEq] at hk
          obtain ⟨s, h1, h2, _⟩ := hkeys _ (dlookup_mem hpd)
          rw [hk.1] at h1
          cases h1
          exact h2 rfl
        refine decl_good hs (fun w' hw' => ih w' (by omega)) (.prop hp hnif hk hd' hpd) hx


/-! ### Nothing is visited twice -/

theorem visitDecl_cases (S : TypeSpecs) (rt : String) (d : PropDecl) (flag : Bool) (path : Path) (v : Val) :
    visitDecl S rt d flag path v = [] ∨
      (∃ xs, v = .list xs ∧ visitDecl S rt d flag path v = visitItems S rt d.itemType path 0 xs) ∨
      ∃ t, visitDecl S rt d flag path v = visitType S rt (some t) path v := by
  rw [visitDecl.eq_def]
  split
  · cases v with
    | list xs => exact .inr (.inl ⟨xs, rfl, rfl⟩)
    | _ => exact .inl rfl
  · cases d.type with
    | none => cases v <;> exact .inl rfl
    | some t =>
      cases v with
      | dict kvs => exact .inr (.inr ⟨t, rfl⟩)
      | _ => exact .inl rfl

theorem append_nodup_map {f : Visit → Path} {a b : List Visit} (ha : (a.map f).Nodup) (hb : (b.map f).Nodup)
    (h : ∀ x ∈ a, ∀ y ∈ b, f x ≠ f y) : ((a ++ b).map f).Nodup := by
  rw [List.map_append, List.nodup_append]
  refine ⟨ha, hb, ?_⟩
  intro p hp q hq
  obtain ⟨x, hx, rfl⟩ := List.mem_map.1 hp
  obtain ⟨y, hy, rfl⟩ := List.mem_map.1 hq
  exact h x hx y hy

mutual
theorem visitType_nodup {S : TypeSpecs} {rt : String} (t : Option String) (path : Path) (v : Val) (hw : v.WF) :
    ((visitType S rt t path v).map Visit.path).Nodup := by
  rw [visitType]
  split
  · exact List.nodup_nil
  · rename_i d hd
    have hself : ((visitSelf (specName rt t) path v).map Visit.path).Nodup := by
      unfold visitSelf
      split
      · split <;> simp
      · simp
    split
    · split
      · split
        · rename_i xs
          refine append_nodup_map hself (visitItems_nodup _ path 0 xs (by simpa [Val.WF] using hw)) ?_
          intro x hx y hy e
          obtain ⟨_, rfl⟩ := mem_visitSelf.1 hx
          obtain ⟨j, q, z, _, h1, _⟩ := visitItems_at _ _ _ _ hy
          rw [h1] at e
          simp at e
        · simpa using hself
      · simpa using hself
    · split
      · rename_i kvs
        refine append_nodup_map hself (visitProps_nodup _ _ path kvs (by simp only [Val.WF] at hw; exact hw.1)
          (by simp only [Val.WF] at hw; exact hw.2)) ?_
        intro x hx y hy e
        obtain ⟨_, rfl⟩ := mem_visitSelf.1 hx
        obtain ⟨k, w, q, h1, _⟩ := visitProps_at _ _ _ _ hy
        rw [h1] at e
        simp at e
      · simpa using hself
termination_by (sizeOf v, 1)
theorem visitItems_nodup {S : TypeSpecs} {rt : String} (t : Option String) (path : Path) (i : Nat) :
    ∀ (xs : List Val), Val.WFList xs → ((visitItems S rt t path i xs).map Visit.path).Nodup
  | [], _ => by rw [visitItems]; exact List.nodup_nil
  | x :: rest, hw => by
    rw [visitItems]
    refine append_nodup_map (visitType_nodup _ _ x hw.1) (visitItems_nodup _ _ _ rest hw.2) ?_
    intro y hy z hz e
    obtain ⟨q, h1, _⟩ := visitType_at _ _ _ hy
    obtain ⟨j, q', _, hj, h2, _⟩ := visitItems_at _ _ _ _ hz
    rw [h1, h2, List.append_assoc, List.append_cancel_left_eq] at e
    simp only [List.cons_append, List.nil_append, List.cons.injEq, Key.int.injEq] at e
    omega
termination_by xs => (sizeOf xs, 0)
theorem visitProps_nodup {S : TypeSpecs} {rt : String} (t : Option String) (ps : List (Key × PropDecl)) (path : Path) :
    ∀ (kvs : List (Key × Val)), (kvs.map Prod.fst).Nodup → Val.WFDict kvs →
      ((visitProps S rt t ps path kvs).map Visit.path).Nodup
  | [], _, _ => by rw [visitProps]; exact List.nodup_nil
  | (k, v) :: rest, hn, hw => by
    rw [visitProps]
    rw [List.map_cons, List.nodup_cons] at hn
    have key : ∀ a : List Visit, (a.map Visit.path).Nodup → (∀ x ∈ a, ∃ q, x.path = (path ++ [k]) ++ q ∧ At v q x.value) →
        ((a ++ visitProps S rt t ps path rest).map Visit.path).Nodup := by
      intro a ha hq
      refine append_nodup_map ha (visitProps_nodup _ _ _ rest hn.2 hw.2) ?_
      intro y hy z hz e
      obtain ⟨q, h1, _⟩ := hq y hy
      obtain ⟨k', w, q', h2, h3, _⟩ := visitProps_at _ _ _ _ hz
      rw [h1, h2, List.append_assoc, List.append_cancel_left_eq] at e
      simp only [List.cons_append, List.nil_append, List.cons.injEq] at e
      exact hn.1 (List.mem_map.2 ⟨_, h3, e.1.symm⟩)
    split
    · split
      · exact key _ (visitIf_nodup _ _ v hw.1) (fun x hx => visitIf_at _ _ v hx)
      · exact key _ List.nodup_nil (by simp)
    · exact key _ (visitDecl_nodup _ _ _ v hw.1) (fun x hx => visitDecl_at _ _ _ v hx)
termination_by kvs => (sizeOf kvs, 0)
theorem visitIf_nodup {S : TypeSpecs} {rt : String} (t : Option String) (path : Path) (v : Val) (hw : v.WF) :
    ((visitIf S rt t path v).map Visit.path).Nodup := by
  rw [visitIf.eq_def]
  split
  · rename_i c a b
    simp only [Val.WF, Val.WFList] at hw
    refine append_nodup_map (visitBranch_nodup _ _ a hw.2.1) (visitBranch_nodup _ _ b hw.2.2.1) ?_
    intro y hy z hz e
    obtain ⟨q, h1, _⟩ := visitBranch_at _ _ _ hy
    obtain ⟨q', h2, _⟩ := visitBranch_at _ _ _ hz
    rw [h1, h2, List.append_assoc, List.append_assoc, List.append_cancel_left_eq] at e
    simp at e
  · exact List.nodup_nil
termination_by (sizeOf v, 0)
theorem visitBranch_nodup {S : TypeSpecs} {rt : String} (t : Option String) (path : Path) (v : Val) (hw : v.WF) :
    ((visitBranch S rt t path v).map Visit.path).Nodup := by
  rw [visitBranch.eq_def]
  split
  · rename_i xs
    exact visitItems_nodup _ path 0 xs (by simpa [Val.WF] using hw)
  · exact visitType_nodup _ _ v hw
termination_by (sizeOf v, 2)
theorem visitDecl_nodup {S : TypeSpecs} {rt : String} (d : PropDecl) (flag : Bool) (path : Path) (v : Val) (hw : v.WF) :
    ((visitDecl S rt d flag path v).map Visit.path).Nodup := by
  rcases visitDecl_cases S rt d flag path v with h | ⟨xs, rfl, h⟩ | ⟨t, h⟩
  · rw [h]; exact List.nodup_nil
  · rw [h]; exact visitItems_nodup _ path 0 xs (by simpa [Val.WF] using hw)
  · rw [h]; exact visitType_nodup _ _ v hw
termination_by (sizeOf v, 2)
end

theorem visitTop_at {S : TypeSpecs} {rt : String} {x : Visit} {ps : List (Key × PropDecl)} {path : Path}
    {kvs : List (Key × Val)} (h : x ∈ visitTop S rt ps path kvs) :
    ∃ k w q, x.path = path ++ k :: q ∧ (k, w) ∈ kvs ∧ At w q x.value := by
  obtain ⟨k, v, d, h1, _, h2⟩ := mem_visitTop.1 h
  obtain ⟨q, h3, h4⟩ := visitDecl_at _ _ _ _ h2
  exact ⟨k, v, q, by rw [h3]; simp, h1, h4⟩

theorem visitTop_nodup {S : TypeSpecs} {rt : String} {ps : List (Key × PropDecl)} {path : Path} :
    ∀ {kvs : List (Key × Val)}, (kvs.map Prod.fst).Nodup → Val.WFDict kvs →
      ((visitTop S rt ps path kvs).map Visit.path).Nodup := by
  intro kvs
  induction kvs with
  | nil => intro _ _; exact List.nodup_nil
  | cons kv rest ih =>
    obtain ⟨k, v⟩ := kv
    intro hn hw
    rw [List.map_cons, List.nodup_cons] at hn
    rw [visitTop]
    have key : ∀ a : List Visit, (a.map Visit.path).Nodup → (∀ x ∈ a, ∃ q, x.path = (path ++ [k]) ++ q ∧ At v q x.value) →
        ((a ++ visitTop S rt ps path rest).map Visit.path).Nodup := by
      intro a ha hq
      refine append_nodup_map ha (ih hn.2 hw.2) ?_
      intro y hy z hz e
      obtain ⟨q, h1, _⟩ := hq y hy
      obtain ⟨k', w, q', h2, h3, _⟩ := visitTop_at hz
      rw [h1, h2, List.append_assoc, List.append_cancel_left_eq] at e
      simp only [List.cons_append, List.nil_append, List.cons.injEq] at e
      exact hn.1 (List.mem_map.2 ⟨_, h3, e.1.symm⟩)
    split
    · exact key _ List.nodup_nil (by simp)
    · exact key _ (visitDecl_nodup _ _ _ v hw.1) (fun x hx => visitDecl_at _ _ _ v hx)

end CfnLint
