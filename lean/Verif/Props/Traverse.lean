import Verif.Lemmas.Traverse
import Verif.Props.Template
import Mathlib.Data.List.Nodup
/-
C44: every typed property object is visited.
-/
namespace CfnLint
open Spec

/-! ### Where and how often -/

theorem leaf_wf {v u : Val} {q : Path} (h : Leaf v q u) : v.WF → u.WF := by
  induction h with
  | here => exact id
  | left _ ih => intro hw; simp only [fnIf, Val.WF, Val.WFDict, Val.WFList] at hw; exact ih hw.2.1.2.1
  | right _ ih => intro hw; simp only [fnIf, Val.WF, Val.WFDict, Val.WFList] at hw; exact ih hw.2.1.2.2.1

/-- C44, paths: every invocation gets the value that stands at the path it gets. -/
theorem C44_path_correct {S : TypeSpecs} {rt : String} {props : List (Key × Val)} {path : Path} {x : Visit}
    (hw : (Val.dict props).WF) (h : x ∈ visitResource S rt props path) :
    ∃ q, x.path = path ++ q ∧ At (.dict props) q x.value := by
  obtain ⟨ps, q, kvs, k, v, d, _, hl, hk, _, _, hx⟩ := (mem_visitResource hw).1 h
  obtain ⟨q', h1, h2⟩ := visitDecl_at _ _ _ _ hx
  refine ⟨q ++ k :: q', by rw [h1]; simp, ?_⟩
  exact at_append (leaf_at hl) (.key hk h2)

theorem wfDict_filter {f : Key × Val → Bool} : ∀ {kvs : List (Key × Val)}, Val.WFDict kvs → Val.WFDict (kvs.filter f) := by
  intro kvs
  induction kvs with
  | nil => exact id
  | cons kv rest ih =>
    intro h
    rw [List.filter_cons]
    split
    · exact ⟨h.1, ih h.2⟩
    · exact ih h.2

/-- C44, once: no path is visited twice. -/
theorem C44_once (S : TypeSpecs) (rt : String) {props : List (Key × Val)} (path : Path) (hw : (Val.dict props).WF) :
    ((visitResource S rt props path).map Visit.path).Nodup := by
  unfold visitResource
  split
  · exact List.nodup_nil
  · rename_i ps hps
    rw [List.map_flatMap, List.nodup_flatMap]
    constructor
    · rintro ⟨w, p⟩ hm
      obtain ⟨q, u, hl, rfl, rfl, hok⟩ := (mem_itemsSafe [.dict] props path p w hw).1 hm
      have hu := leaf_wf hl hw
      cases u with
      | dict kvs =>
        simp only [withoutNoValue]
        simp only [Val.WF] at hu
        exact visitTop_nodup (hu.1.sublist (List.Sublist.map _ List.filter_sublist)) (wfDict_filter hu.2)
      | _ => exact List.nodup_nil
    · have hn := itemsSafe_nodup [.dict] props path hw
      rw [List.Nodup, List.pairwise_map] at hn
      refine hn.imp_of_mem ?_
      rintro ⟨w, p⟩ ⟨w', p'⟩ hm hm' hne
      obtain ⟨q, u, hl, rfl, rfl, hok⟩ := (mem_itemsSafe [.dict] props path p w hw).1 hm
      obtain ⟨q', u', hl', rfl, rfl, hok'⟩ := (mem_itemsSafe [.dict] props path p' w' hw).1 hm'
      dsimp only at hne
      intro y hy hy'
      dsimp only at hy hy'
      cases u with
      | dict kvs =>
        cases u' with
        | dict kvs' =>
          obtain ⟨x, hx, rfl⟩ := List.mem_map.1 hy
          obtain ⟨x', hx', e⟩ := List.mem_map.1 hy'
          obtain ⟨k, _, r, h1, _⟩ := visitTop_at hx
          obtain ⟨k', _, r', h2, _⟩ := visitTop_at hx'
          rw [h1, h2, List.append_assoc, List.append_assoc, List.append_cancel_left_eq] at e
          exact hne (by rw [(leaf_prefix hl' hl e).1])
        | _ => cases hy'
      | _ => cases hy

/-- C44, rules: the rules are invoked on the visits of the types they are registered for. -/
theorem C44_registered {rules : List SubRule} {vs : List Visit} {r : SubRule} {x : Visit} :
    (r, x) ∈ invocations rules vs ↔ r ∈ rules ∧ x ∈ vs ∧ x.typeName ∈ r.types := by
  simp only [invocations, List.mem_flatMap, List.mem_map, List.mem_filter, List.contains_iff_mem, Prod.mk.injEq]
  constructor
  · rintro ⟨y, hy, r', ⟨h1, h2⟩, rfl, rfl⟩; exact ⟨h1, hy, h2⟩
  · rintro ⟨h1, h2, h3⟩; exact ⟨x, h2, r, ⟨h1, h3⟩, rfl, rfl⟩

/-! ### Only typed positions -/

theorem registered_inj {rt t u : String} (h : registeredName rt t = registeredName rt u) : t = u := by
  have hdot : ∀ w : String, "Tag" ≠ rt ++ "." ++ w := by
    intro w e
    have : '.' ∈ "Tag".toList := by rw [e]; simp
    revert this
    decide
  unfold registeredName at h
  by_cases ht : t = "Tag"
  · by_cases hu : u = "Tag"
    · rw [ht, hu]
    · rw [if_pos ht, if_neg hu] at h
      exact absurd h (hdot u)
  · by_cases hu : u = "Tag"
    · rw [if_neg ht, if_pos hu] at h
      exact absurd h.symm (hdot t)
    · rw [if_neg ht, if_neg hu] at h
      have := congrArg String.toList h
      simp only [String.toList_append, List.append_assoc, List.append_cancel_left_eq] at this
      exact String.toList_inj.1 this

/-- C44, nothing else: when no branch of an `Fn::If` at a single position is a list and `Fn::If` stands alone,
every invocation is on a value at a position of the type it is invoked for, and not on an `Fn::If`. -/
theorem C44_sound_partial {S : TypeSpecs} {rt : String} {ps : List (Key × PropDecl)} {props : List (Key × Val)} {path : Path}
    (hw : (Val.dict props).WF) (hps : dlookup rt S.resourceTypes = some ps) (hs : Sane S rt ps)
    (ht : Tidy S rt ps (.dict props) path) {t : String} {p : Path} {v : Val}
    (h : ⟨p, v, registeredName rt t⟩ ∈ visitResource S rt props path) :
    Pos S rt ps (.dict props) path (.single t) p v ∧ (∃ d, typeOf S rt t = some d) ∧ ¬ IsIf v := by
  obtain ⟨_, q, kvs, k, w, d, e, hl, hk, _, hd, hx⟩ := (mem_visitResource hw).1 h
  rw [hps] at e
  cases e
  rw [no_primitive_flag hs.topKeys] at hx
  obtain ⟨u, d', h1, h2, h3, h4⟩ := decl_good hs (fun w' _ => type_good hs ht _ w' (Nat.le_refl _)) (.top hl hk hd) hx
  have := registered_inj h2
  subst this
  exact ⟨h1, ⟨d', h3⟩, h4⟩

/-! ### Every object -/

/-- what the traversal does not follow: an `Fn::If` in place of a list, maps, an `Fn::If` at a type without
properties, list types given directly by a property -/
structure Followed (S : TypeSpecs) (rt : String) (ps : List (Key × PropDecl)) (root : Val) (base : Path) : Prop where
  noListIf : ∀ t p v, Pos S rt ps root base (.list t) p v → ¬ IsIf v
  noMap : ∀ t p v, ¬ Pos S rt ps root base (.map t) p v
  ifProps : ∀ t p v d, Pos S rt ps root base (.single t) p v → IsIf v → typeOf S rt t = some d → d.properties ≠ []
  listType : ∀ t p v d u, Pos S rt ps root base (.single t) p v → typeOf S rt t = some d → d.properties = [] →
    d.type = some "List" → d.itemType = some u → (∃ xs, v = .list xs) ∧ ∃ i : Int, p.getLast? = some (.int i)

/-- what holds of the positions: the traversal goes through them -/
def Through (S : TypeSpecs) (rt : String) (V : List Visit) : Decl → Path → Val → Prop
  | .single t, p, v =>
    ((∃ kvs, v = .dict kvs) → v ≠ noValue → ∀ x ∈ visitType S rt (some t) p v, x ∈ V) ∧
    (∀ d u, typeOf S rt t = some d → d.properties = [] → d.type = some "List" → d.itemType = some u →
      ∀ x ∈ visitType S rt (some t) p v, x ∈ V)
  | .list t, p, v => ∀ xs, v = .list xs → ∀ x ∈ visitItems S rt (some t) p 0 xs, x ∈ V
  | .map _, _, _ => True
  | .primitive, _, _ => True

theorem through_decl {S : TypeSpecs} {rt : String} {ps : List (Key × PropDecl)} {root : Val} {base : Path} {V : List Visit}
    (hf : Followed S rt ps root base) {pd : PropDecl} {p : Path} {v : Val} {s : String}
    (hp : Pos S rt ps root base (declOf pd) (p ++ [.str s]) v)
    (hV : v ≠ noValue → ∀ x ∈ visitDecl S rt pd false (p ++ [.str s]) v, x ∈ V) :
    Through S rt V (declOf pd) (p ++ [.str s]) v := by
  generalize hD : declOf pd = D at *
  cases D with
  | primitive => trivial
  | map t => trivial
  | list t =>
    intro xs hxs x hx
    subst hxs
    have : pd.type = some "List" ∧ pd.itemType = some t := by
      unfold declOf at hD
      split at hD
      · cases hD
      · rename_i u hu
        by_cases h1 : u = "List"
        · rw [if_pos h1] at hD
          split at hD
          · rename_i w hw'; cases hD; exact ⟨by rw [hu, h1], hw'⟩
          · cases hD
        · rw [if_neg h1] at hD
          split at hD
          · split at hD <;> cases hD
          · cases hD
    exact hV (by simp [noValue]) x (mem_visitDecl.2 (.inl ⟨xs, rfl, this.1, rfl, by rw [this.2]; exact hx⟩))
  | single t =>
    have : pd.type = some t ∧ t ≠ "List" := by
      unfold declOf at hD
      split at hD
      · cases hD
      · rename_i u hu
        by_cases h1 : u = "List"
        · rw [if_pos h1] at hD
          split at hD <;> cases hD
        · rw [if_neg h1] at hD
          split at hD
          · split at hD <;> cases hD
          · cases hD; exact ⟨hu, h1⟩
    refine ⟨?_, ?_⟩
    · intro hd hnv x hx
      exact hV hnv x (mem_visitDecl.2 (.inr ⟨t, this.1, fun h => this.2 h.1, hd, hx⟩))
    · intro d u h1 h2 h3 h4
      obtain ⟨_, i, hi⟩ := hf.listType t _ _ d u hp h1 h2 h3 h4
      simp at hi

theorem pos_through {S : TypeSpecs} {rt : String} {ps : List (Key × PropDecl)} {props : List (Key × Val)} {path : Path}
    (hw : (Val.dict props).WF) (hps : dlookup rt S.resourceTypes = some ps) (hs : Sane S rt ps)
    (hf : Followed S rt ps (.dict props) path) {D : Decl} {p : Path} {v : Val}
    (h : Pos S rt ps (.dict props) path D p v) : Through S rt (visitResource S rt props path) D p v := by
  have hbranch : ∀ {D p c a b} (i : Int) (y : Val), Pos S rt ps (.dict props) path D p (fnIf c a b) →
      Pos S rt ps (.dict props) path D (p ++ [.str "Fn::If", .int i]) y → (i = 1 ∧ y = a ∨ i = 2 ∧ y = b) →
      Through S rt (visitResource S rt props path) D p (fnIf c a b) →
      Through S rt (visitResource S rt props path) D (p ++ [.str "Fn::If", .int i]) y := by
    intro D p c a b i y hp hp2 hy ih
    cases D with
    | primitive => trivial
    | map t => trivial
    | list t => exact absurd ⟨_, rfl⟩ (hf.noListIf t _ _ hp)
    | single t =>
      refine ⟨?_, ?_⟩
      · rintro ⟨kvs, rfl⟩ _ x hx
        refine ih.1 ⟨_, rfl⟩ (by simp [fnIf, noValue]) x ?_
        obtain ⟨d, hd, _⟩ := mem_visitType.1 hx
        have hd' : typeOf S rt t = some d := by rw [← typeOf_eq]; exact hd
        refine mem_visitType.2 ⟨d, hd, .inr (.inr ⟨hf.ifProps t _ _ d hp ⟨_, rfl⟩ hd', _, rfl, ?_⟩)⟩
        refine mem_visitProps.2 ⟨.str "Fn::If", _, List.mem_singleton_self _, .inl ⟨?_, rfl, ?_⟩⟩
        · rw [dlookup_none_iff]
          intro hm
          obtain ⟨kd, hkd, e⟩ := List.mem_map.1 hm
          obtain ⟨s, h1, h2, _⟩ := hs.typeKeys _ (dlookup_mem hd) kd hkd
          rw [e] at h1
          cases h1
          exact h2 rfl
        · refine mem_visitIf.2 ⟨c, a, b, rfl, ?_⟩
          rcases hy with ⟨rfl, rfl⟩ | ⟨rfl, rfl⟩
          · exact .inl (mem_visitBranch.2 (.inr ⟨by simp, by simpa using hx⟩))
          · exact .inr (mem_visitBranch.2 (.inr ⟨by simp, by simpa using hx⟩))
      · intro d u h1 h2 h3 h4
        exact absurd h2 (hf.ifProps t _ _ d hp ⟨_, rfl⟩ h1)
  induction h with
  | @top q kvs k d v hl hk hd =>
    obtain ⟨s, h1, _⟩ := hs.topKeys _ (dlookup_mem hd)
    dsimp only at h1
    subst h1
    refine through_decl hf (.top hl hk hd) ?_
    intro hnv x hx
    refine (mem_visitResource hw).2 ⟨ps, q, kvs, .str s, v, d, hps, hl, hk, hnv, hd, ?_⟩
    rw [no_primitive_flag hs.topKeys]
    exact hx
  | left hp ih => exact hbranch 1 _ hp (.left hp) (.inl ⟨rfl, rfl⟩) ih
  | right hp ih => exact hbranch 2 _ hp (.right hp) (.inr ⟨rfl, rfl⟩) ih
  | @item t p xs i x hp hi ih =>
    have key : ∀ y ∈ visitType S rt (some t) (p ++ [.int i]) x, y ∈ visitResource S rt props path := by
      intro y hy
      exact ih xs rfl y (mem_visitItems.2 ⟨i, x, hi, by simpa using hy⟩)
    exact ⟨fun _ _ => key, fun _ _ _ _ _ _ => key⟩
  | mapped hp _ _ _ => exact absurd hp (hf.noMap _ _ _)
  | @listType t p v d u hp h1 h2 h3 h4 ih =>
    intro xs hxs x hx
    subst hxs
    refine ih.2 d u h1 h2 h3 h4 x ?_
    refine mem_visitType.2 ⟨d, by rw [typeOf_eq]; exact h1, .inr (.inl ⟨h2, h3, xs, rfl, by rw [h4]; exact hx⟩)⟩
  | @prop t p kvs k d pd v hp hnif hk hd hpd ih =>
    have hd2 : dlookup (specName rt (some t)) S.propertyTypes = some d := by rw [typeOf_eq]; exact hd
    have hkeys := hs.typeKeys _ (dlookup_mem hd2)
    obtain ⟨s, h1, _⟩ := hkeys _ (dlookup_mem hpd)
    dsimp only at h1
    subst h1
    refine through_decl hf (.prop hp hnif hk hd hpd) ?_
    intro hnv x hx
    by_cases hnv2 : Val.dict kvs = noValue
    · unfold noValue at hnv2
      simp only [Val.dict.injEq] at hnv2
      rw [hnv2] at hk
      simp only [List.mem_singleton, Prod.mk.injEq] at hk
      obtain ⟨_, rfl⟩ := hk
      rcases mem_visitDecl.1 hx with ⟨xs, e, _⟩ | ⟨_, _, _, ⟨_, e⟩, _⟩ <;> cases e
    · refine ih.1 ⟨_, rfl⟩ hnv2 x ?_
      refine mem_visitType.2 ⟨d, hd2, .inr (.inr ⟨?_, kvs, rfl, ?_⟩)⟩
      · intro e; rw [e] at hpd; cases hpd
      · refine mem_visitProps.2 ⟨.str s, v, hk, .inr ⟨pd, hpd, ?_⟩⟩
        rw [no_primitive_flag hkeys]
        exact hx

/-- C44, every object: where the traversal follows the declarations, the rules are invoked on every object of a
known type, with its path. -/
theorem C44_complete_partial {S : TypeSpecs} {rt : String} {ps : List (Key × PropDecl)} {props : List (Key × Val)} {path : Path}
    (hw : (Val.dict props).WF) (hps : dlookup rt S.resourceTypes = some ps) (hs : Sane S rt ps)
    (hf : Followed S rt ps (.dict props) path) {t : String} {p : Path} {v : Val} {d : TypeDecl}
    (hd : typeOf S rt t = some d) (h : ObjectOf S rt ps (.dict props) path t p v) :
    ⟨p, v, registeredName rt t⟩ ∈ visitResource S rt props path := by
  obtain ⟨hp, hdict, hnif, hnv⟩ := h
  refine (pos_through hw hps hs hf hp).1 hdict hnv _ ?_
  rw [← specName_some]
  exact mem_visitType.2 ⟨d, by rw [typeOf_eq]; exact hd, .inl ⟨hnif, rfl⟩⟩

/-! ### The full statement and where it fails -/

/-- C44 in full: the rules are invoked for a type exactly on the objects of that type. -/
def C44_statement : Prop :=
  ∀ (S : TypeSpecs) (rt : String) (ps : List (Key × PropDecl)) (props : List (Key × Val)) (path : Path),
    (Val.dict props).WF → dlookup rt S.resourceTypes = some ps → Sane S rt ps →
    ∀ t d p v, typeOf S rt t = some d →
      ((⟨p, v, registeredName rt t⟩ : Visit) ∈ visitResource S rt props path ↔ ObjectOf S rt ps (.dict props) path t p v)

/-- the properties of the resource type of the examples -/
def demoProps : List (Key × PropDecl) :=
  [(.str "L", ⟨some "List", some "P"⟩), (.str "S", ⟨some "P", none⟩), (.str "M", ⟨some "Map", some "P"⟩),
   (.str "Q", ⟨some "LT", none⟩), (.str "E", ⟨some "Empty", none⟩)]

/-- a resource type with a list, a single object, a map and a list type of `P`, and a type without properties -/
def demoTypes : TypeSpecs where
  propertyTypes := [("R.P", ⟨[(.str "A", ⟨none, none⟩), (.str "In", ⟨some "P", none⟩)], none, none⟩),
    ("R.LT", ⟨[], some "List", some "P"⟩), ("R.Empty", ⟨[], none, none⟩)]
  resourceTypes := [("R", demoProps)]

theorem demo_sane : Sane demoTypes "R" demoProps where
  noList := by decide
  noMap := by decide
  noNone := by decide
  topKeys := by
    intro kd h
    simp only [demoProps, List.mem_cons, List.not_mem_nil, or_false] at h
    rcases h with rfl | rfl | rfl | rfl | rfl <;> exact ⟨_, rfl, by decide, by decide⟩
  typeKeys := by
    intro td h kd h2
    simp only [demoTypes, List.mem_cons, List.not_mem_nil, or_false] at h
    rcases h with rfl | rfl | rfl
    · simp only [List.mem_cons, List.not_mem_nil, or_false] at h2
      rcases h2 with rfl | rfl <;> exact ⟨_, rfl, by decide, by decide⟩
    · cases h2
    · cases h2

theorem leaf_prop {s : String} (v : Val) (h1 : s ≠ "Fn::If") (h2 : s ≠ "Ref") :
    Leaf (.dict [(.str s, v)]) [] (.dict [(.str s, v)]) :=
  .here (by rintro ⟨_, h⟩; simp at h; exact h1 h.1) (by simp [noValue, h2])

theorem leaf_prop_only {s : String} {v : Val} {kvs : List (Key × Val)} {q : Path} (h1 : s ≠ "Fn::If")
    (h : Leaf (.dict [(.str s, v)]) q (.dict kvs)) : kvs = [(.str s, v)] ∧ q = [] := by
  generalize hu : Val.dict [(.str s, v)] = u at h
  cases h with
  | here _ _ => cases hu; exact ⟨rfl, rfl⟩
  | left _ => simp [fnIf, h1] at hu
  | right _ => simp [fnIf, h1] at hu

/-- the object of the examples -/
def demoObj : Val := .dict [(.str "A", .int 1)]

/-- a list given by a condition -/
def condList : List (Key × Val) := [(.str "L", fnIf (.str "C") (.list [demoObj]) (.list []))]

theorem condList_pos : Pos demoTypes "R" demoProps (.dict condList) [] (.single "P")
    [.str "L", .str "Fn::If", .int 1, .int 0] demoObj :=
  .item (i := 0) (.left (.top (d := ⟨some "List", some "P"⟩) (leaf_prop _ (by decide) (by decide)) List.mem_cons_self rfl)) rfl

theorem condList_unvisited : visitResource demoTypes "R" condList [] = [] := by
  have : itemsSafe [.dict] condList [] = [(.dict condList, [])] := by decide
  simp only [visitResource, this]
  simp [demoTypes, demoProps, dlookup, dhas, condList, visitTop, visitDecl, fnIf]

theorem demoObj_object {props : List (Key × Val)} {p : Path}
    (h : Pos demoTypes "R" demoProps (.dict props) [] (.single "P") p demoObj) :
    ObjectOf demoTypes "R" demoProps (.dict props) [] "P" p demoObj :=
  ⟨h, ⟨_, rfl⟩, by rintro ⟨_, h⟩; simp [demoObj] at h, by simp [demoObj, noValue]⟩

/-- C44 fails: the objects of a list given by a condition are not visited. -/
theorem C44_condition_violated : ¬ C44_statement := by
  intro h
  have := (h demoTypes "R" demoProps condList []
    (by simp [condList, demoObj, fnIf, Val.WF, Val.WFDict, Val.WFList]) rfl demo_sane "P" _ _ _ rfl).2
    (demoObj_object condList_pos)
  rw [condList_unvisited] at this
  cases this

/-- a map of objects -/
def mapObjects : List (Key × Val) := [(.str "M", .dict [(.str "k", demoObj)])]

/-- C44 fails: the objects of a map are not visited. -/
theorem C44_map_violated :
    ObjectOf demoTypes "R" demoProps (.dict mapObjects) [] "P" [.str "M", .str "k"] demoObj ∧
    visitResource demoTypes "R" mapObjects [] = [] := by
  refine ⟨demoObj_object ?_, ?_⟩
  · exact .mapped (p := [.str "M"]) (.top (d := ⟨some "Map", some "P"⟩) (leaf_prop _ (by decide) (by decide)) List.mem_cons_self rfl)
      (by rintro ⟨_, h⟩; simp at h) List.mem_cons_self
  · have : itemsSafe [.dict] mapObjects [] = [(.dict mapObjects, [])] := by decide
    simp only [visitResource, this]
    simp [demoTypes, demoProps, dlookup, dhas, mapObjects, visitTop, visitDecl, visitType, specName]

/-- a property whose type is a list type -/
def aliasList : List (Key × Val) := [(.str "Q", .list [demoObj])]

/-- C44 fails: the objects of a list whose type is declared as a list are not visited. -/
theorem C44_list_type_violated :
    ObjectOf demoTypes "R" demoProps (.dict aliasList) [] "P" [.str "Q", .int 0] demoObj ∧
    visitResource demoTypes "R" aliasList [] = [] := by
  refine ⟨demoObj_object ?_, ?_⟩
  · exact .item (i := 0) (p := [.str "Q"]) (.listType (t := "LT")
      (.top (d := ⟨some "LT", none⟩) (leaf_prop _ (by decide) (by decide)) List.mem_cons_self rfl) rfl rfl rfl rfl) (xs := [demoObj]) rfl
  · have : itemsSafe [.dict] aliasList [] = [(.dict aliasList, [])] := by decide
    simp only [visitResource, this]
    simp [demoTypes, demoProps, dlookup, dhas, aliasList, visitTop, visitDecl]

/-- an object of a type without declared properties, given by a condition -/
def condEmpty : List (Key × Val) := [(.str "E", fnIf (.str "C") demoObj demoObj)]

/-- C44 fails: an object of a type without declared properties is not visited when a condition gives it. -/
theorem C44_no_properties_violated :
    ObjectOf demoTypes "R" demoProps (.dict condEmpty) [] "Empty" [.str "E", .str "Fn::If", .int 1] demoObj ∧
    visitResource demoTypes "R" condEmpty [] = [] := by
  refine ⟨⟨?_, ⟨_, rfl⟩, by rintro ⟨_, h⟩; simp [demoObj] at h, by simp [demoObj, noValue]⟩, ?_⟩
  · exact .left (p := [.str "E"]) (.top (d := ⟨some "Empty", none⟩) (leaf_prop _ (by decide) (by decide)) List.mem_cons_self rfl)
  · have : itemsSafe [.dict] condEmpty [] = [(.dict condEmpty, [])] := by decide
    simp only [visitResource, this]
    simp [demoTypes, demoProps, dlookup, dhas, condEmpty, visitTop, visitDecl, visitType, specName, fnIf, visitSelf]

/-- a list item that is removed when the template is deployed -/
def absentItem : List (Key × Val) := [(.str "L", .list [noValue])]

/-- C44 fails: a list item that refers to `AWS::NoValue` is visited. -/
theorem C44_no_value_violated :
    (⟨[.str "L", .int 0], noValue, "R.P"⟩ : Visit) ∈ visitResource demoTypes "R" absentItem [] ∧
    ¬ ObjectOf demoTypes "R" demoProps (.dict absentItem) [] "P" [.str "L", .int 0] noValue := by
  refine ⟨?_, fun h => h.2.2.2 rfl⟩
  have : itemsSafe [.dict] absentItem [] = [(.dict absentItem, [])] := by decide
  simp only [visitResource, this]
  simp [demoTypes, demoProps, dlookup, dhas, absentItem, visitTop, visitDecl, visitItems, visitType, specName, noValue, visitSelf]

/-- a list where a single object belongs -/
def listBranch : List (Key × Val) := [(.str "S", fnIf (.str "C") (.list [demoObj]) demoObj)]

/-- every position below `S` in `listBranch` other than the branches is inside an object -/
theorem listBranch_pos {D : Decl} {p : Path} {v : Val}
    (h : Pos demoTypes "R" demoProps (.dict listBranch) [] D p v) :
    (D = .single "P" ∧ (v = fnIf (.str "C") (.list [demoObj]) demoObj ∨ v = .list [demoObj] ∨ v = demoObj) ∧
      p ≠ [.str "S", .str "Fn::If", .int 1, .int 0]) ∨ (D = .primitive ∧ v = .int 1) := by
  have hk : ∀ {kvs : List (Key × Val)} {q : Path}, Leaf (.dict listBranch) q (.dict kvs) → kvs = listBranch ∧ q = [] := by
    intro kvs q hl
    exact leaf_prop_only (by decide) hl
  induction h with
  | top hl hm hd =>
    obtain ⟨rfl, rfl⟩ := hk hl
    simp only [listBranch, List.mem_singleton, Prod.mk.injEq] at hm
    obtain ⟨rfl, rfl⟩ := hm
    simp [demoProps, dlookup] at hd
    subst hd
    exact .inl ⟨by simp [declOf], .inl rfl, by simp⟩
  | left hp ih =>
    rcases ih with ⟨rfl, h | h | h, _⟩ | ⟨_, h⟩
    · simp only [fnIf, Val.dict.injEq, List.cons.injEq, Prod.mk.injEq, Val.list.injEq, true_and, and_true] at h
      obtain ⟨rfl, rfl, rfl⟩ := h
      refine .inl ⟨rfl, .inr (.inl rfl), ?_⟩
      intro e
      have := congrArg List.getLast? e
      simp at this
    · simp [fnIf] at h
    · simp [fnIf, demoObj] at h
    · simp [fnIf] at h
  | right hp ih =>
    rcases ih with ⟨rfl, h | h | h, _⟩ | ⟨_, h⟩
    · simp only [fnIf, Val.dict.injEq, List.cons.injEq, Prod.mk.injEq, Val.list.injEq, true_and, and_true] at h
      obtain ⟨rfl, rfl, rfl⟩ := h
      refine .inl ⟨rfl, .inr (.inr rfl), ?_⟩
      intro e
      have := congrArg List.getLast? e
      simp at this
    · simp [fnIf] at h
    · simp [fnIf, demoObj] at h
    · simp [fnIf] at h
  | item hp hi ih => rcases ih with ⟨h, _⟩ | ⟨h, _⟩ <;> cases h
  | mapped hp _ _ ih => rcases ih with ⟨h, _⟩ | ⟨h, _⟩ <;> cases h
  | listType hp h1 h2 h3 h4 ih =>
    rcases ih with ⟨h, _⟩ | ⟨h, _⟩
    · cases h
      have : typeOf demoTypes "R" "P" = some ⟨[(.str "A", ⟨none, none⟩), (.str "In", ⟨some "P", none⟩)], none, none⟩ := rfl
      rw [this] at h1
      cases h1
      cases h2
    · cases h
  | prop hp hn hk' hd hpd ih =>
    rcases ih with ⟨h, h2 | h2 | h2, _⟩ | ⟨h, _⟩
    · exact absurd ⟨_, h2⟩ hn
    · cases h2
    · cases h
      simp only [demoObj, Val.dict.injEq] at h2
      subst h2
      simp only [List.mem_singleton, Prod.mk.injEq] at hk'
      obtain ⟨rfl, rfl⟩ := hk'
      have : typeOf demoTypes "R" "P" = some ⟨[(.str "A", ⟨none, none⟩), (.str "In", ⟨some "P", none⟩)], none, none⟩ := rfl
      rw [this] at hd
      cases hd
      simp [dlookup] at hpd
      subst hpd
      exact .inr ⟨rfl, rfl⟩
    · cases h

/-- C44 fails: the items of a list in a branch where a single object belongs are visited as objects. -/
theorem C44_list_branch_violated :
    (⟨[.str "S", .str "Fn::If", .int 1, .int 0], demoObj, "R.P"⟩ : Visit) ∈ visitResource demoTypes "R" listBranch [] ∧
    ¬ ObjectOf demoTypes "R" demoProps (.dict listBranch) [] "P" [.str "S", .str "Fn::If", .int 1, .int 0] demoObj := by
  refine ⟨?_, ?_⟩
  · have : itemsSafe [.dict] listBranch [] = [(.dict listBranch, [])] := by decide
    simp only [visitResource, this]
    simp [demoTypes, demoProps, dlookup, dhas, listBranch, visitTop, visitDecl, visitItems, visitType, specName, demoObj,
      visitSelf, fnIf, visitProps, visitIf, visitBranch]
  · rintro ⟨h, _⟩
    rcases listBranch_pos h with ⟨_, _, h⟩ | ⟨h, _⟩
    · exact h rfl
    · cases h

/-! ### Hypotheses that can be met -/

/-- one object -/
def oneObject : List (Key × Val) := [(.str "S", fnIf (.str "C") demoObj noValue)]

theorem oneObject_pos {D : Decl} {p : Path} {v : Val}
    (h : Pos demoTypes "R" demoProps (.dict oneObject) [] D p v) :
    (D = .single "P" ∧ (v = fnIf (.str "C") demoObj noValue ∨ v = demoObj ∨ v = noValue)) ∨ (D = .primitive ∧ v = .int 1) := by
  have hk : ∀ {kvs : List (Key × Val)} {q : Path}, Leaf (.dict oneObject) q (.dict kvs) → kvs = oneObject ∧ q = [] := by
    intro kvs q hl
    exact leaf_prop_only (by decide) hl
  have hP : typeOf demoTypes "R" "P" = some ⟨[(.str "A", ⟨none, none⟩), (.str "In", ⟨some "P", none⟩)], none, none⟩ := rfl
  induction h with
  | top hl hm hd =>
    obtain ⟨rfl, rfl⟩ := hk hl
    simp only [oneObject, List.mem_singleton, Prod.mk.injEq] at hm
    obtain ⟨rfl, rfl⟩ := hm
    simp [demoProps, dlookup] at hd
    subst hd
    exact .inl ⟨by simp [declOf], .inl rfl⟩
  | left hp ih =>
    rcases ih with ⟨rfl, h | h | h⟩ | ⟨_, h⟩
    · simp only [fnIf, Val.dict.injEq, List.cons.injEq, Prod.mk.injEq, Val.list.injEq, true_and, and_true] at h
      obtain ⟨rfl, rfl, rfl⟩ := h
      exact .inl ⟨rfl, .inr (.inl rfl)⟩
    · simp [fnIf, demoObj] at h
    · simp [fnIf, noValue] at h
    · simp [fnIf] at h
  | right hp ih =>
    rcases ih with ⟨rfl, h | h | h⟩ | ⟨_, h⟩
    · simp only [fnIf, Val.dict.injEq, List.cons.injEq, Prod.mk.injEq, Val.list.injEq, true_and, and_true] at h
      obtain ⟨rfl, rfl, rfl⟩ := h
      exact .inl ⟨rfl, .inr (.inr rfl)⟩
    · simp [fnIf, demoObj] at h
    · simp [fnIf, noValue] at h
    · simp [fnIf] at h
  | item hp hi ih => rcases ih with ⟨h, _⟩ | ⟨h, _⟩ <;> cases h
  | mapped hp _ _ ih => rcases ih with ⟨h, _⟩ | ⟨h, _⟩ <;> cases h
  | listType hp h1 h2 h3 h4 ih =>
    rcases ih with ⟨h, _⟩ | ⟨h, _⟩
    · cases h
      rw [hP] at h1
      cases h1
      cases h2
    · cases h
  | prop hp hn hk' hd hpd ih =>
    rcases ih with ⟨h, h2 | h2 | h2⟩ | ⟨h, _⟩
    · exact absurd ⟨_, h2⟩ hn
    · cases h
      simp only [demoObj, Val.dict.injEq] at h2
      subst h2
      simp only [List.mem_singleton, Prod.mk.injEq] at hk'
      obtain ⟨rfl, rfl⟩ := hk'
      rw [hP] at hd
      cases hd
      simp [dlookup] at hpd
      subst hpd
      exact .inr ⟨rfl, rfl⟩
    · cases h
      simp only [noValue, Val.dict.injEq] at h2
      subst h2
      simp only [List.mem_singleton, Prod.mk.injEq] at hk'
      obtain ⟨rfl, rfl⟩ := hk'
      rw [hP] at hd
      cases hd
      simp [dlookup] at hpd
    · cases h

theorem oneObject_tidy : Tidy demoTypes "R" demoProps (.dict oneObject) [] where
  branches := by
    intro t p c a b h
    rcases oneObject_pos h with ⟨_, h | h | h⟩ | ⟨h, _⟩
    · simp only [fnIf, Val.dict.injEq, List.cons.injEq, Prod.mk.injEq, Val.list.injEq, true_and, and_true] at h
      obtain ⟨rfl, rfl, rfl⟩ := h
      exact ⟨by simp [demoObj], by simp [noValue]⟩
    · simp [fnIf, demoObj] at h
    · simp [fnIf, noValue] at h
    · cases h
  alone := by
    intro t p kvs w h hm
    rcases oneObject_pos h with ⟨_, h | h | h⟩ | ⟨h, _⟩
    · exact ⟨_, h⟩
    · simp only [demoObj, Val.dict.injEq] at h; subst h; simp at hm
    · simp only [noValue, Val.dict.injEq] at h; subst h; simp at hm
    · cases h

theorem oneObject_followed : Followed demoTypes "R" demoProps (.dict oneObject) [] where
  noListIf := by intro t p v h; rcases oneObject_pos h with ⟨h, _⟩ | ⟨h, _⟩ <;> cases h
  noMap := by intro t p v h; rcases oneObject_pos h with ⟨h, _⟩ | ⟨h, _⟩ <;> cases h
  ifProps := by
    intro t p v d h _ hd e
    rcases oneObject_pos h with ⟨h, _⟩ | ⟨h, _⟩
    · cases h; cases hd; cases e
    · cases h
  listType := by
    intro t p v d u h hd e
    rcases oneObject_pos h with ⟨h, _⟩ | ⟨h, _⟩
    · cases h; cases hd; cases e
    · cases h

example : (Val.dict oneObject).WF ∧ dlookup "R" demoTypes.resourceTypes = some demoProps ∧ Sane demoTypes "R" demoProps ∧
    Tidy demoTypes "R" demoProps (.dict oneObject) [] ∧ Followed demoTypes "R" demoProps (.dict oneObject) [] ∧
    (∃ d, typeOf demoTypes "R" "P" = some d) ∧
    ObjectOf demoTypes "R" demoProps (.dict oneObject) [] "P" [.str "S", .str "Fn::If", .int 1] demoObj :=
  ⟨by simp [oneObject, demoObj, noValue, fnIf, Val.WF, Val.WFDict, Val.WFList], rfl, demo_sane, oneObject_tidy,
    oneObject_followed, ⟨_, rfl⟩,
    demoObj_object (.left (p := [.str "S"]) (.top (d := ⟨some "P", none⟩) (leaf_prop _ (by decide) (by decide)) List.mem_cons_self rfl))⟩

end CfnLint
