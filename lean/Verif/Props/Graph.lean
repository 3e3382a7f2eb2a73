import Verif.Lemmas.Graph
/-
C40: circular dependency detection.
-/
namespace CfnLint
open Spec

/-- the entries of the section -/
theorem resourcesOf_spec {t : Val} (h : GraphShape t) : ∃ res, resourcesOf t = .ok res ∧
    (∀ k v, (k, v) ∈ res ↔ At t [.str "Resources", k] v) ∧ (∀ kv ∈ res, ∃ e b, kv.2 = .dict (e :: b)) := by
  obtain ⟨kvs, rfl⟩ := h.top
  have hwf := h.wf
  simp only [Val.WF] at hwf
  simp only [resourcesOf, Val.getD]
  cases hl : dlookup (Key.str "Resources") kvs with
  | none =>
    refine ⟨[], rfl, ?_, by simp⟩
    intro k v
    simp only [List.not_mem_nil, false_iff]
    intro hat
    rw [at_cons] at hat
    obtain ⟨c, hc, _⟩ := hat
    rw [at_dict_one] at hc
    exact dlookup_none_iff.1 hl (List.mem_map_of_mem (f := Prod.fst) hc)
  | some s =>
    have hat : At (.dict kvs) [.str "Resources"] s := at_dict_one.2 (dlookup_mem hl)
    obtain ⟨res, rfl, hres⟩ := h.resources s hat
    refine ⟨res, rfl, ?_, hres⟩
    intro k v
    rw [at_two h.wf hat, at_dict_one]

/-- what a search result below a resource is -/
theorem search_source {t g : Val} (h : GraphShape t) (hg : ∀ p v, ¬ At g (.str "Resources" :: p) v) {key : String}
    {p : Path} {v : Val} {a : Key} (hm : (p, v) ∈ searchDeepKeys key t g) (hs : sourceOf p = some a) :
    IsRes t a ∧ (ResourceUses t a key v ∨ ∃ kvs, v = .dict kvs) := by
  rw [C27_search_exact] at hm
  obtain ⟨hat, q, hq⟩ := hm
  unfold sourceOf at hs
  split at hs
  · rename_i k s rest
    split at hs
    · rename_i hk
      subst hk
      cases hs
      have hat : At t (.str "Resources" :: a :: rest) v := by
        rcases hat with h | h
        · exact h
        · exact absurd h (hg _ _)
      have hres : IsRes t a := by
        rw [at_cons] at hat
        obtain ⟨c, hc, hat⟩ := hat
        rw [at_cons] at hat
        obtain ⟨d, hd, _⟩ := hat
        exact ⟨d, (at_cons).2 ⟨c, hc, hd⟩⟩
      refine ⟨hres, ?_⟩
      rcases List.eq_nil_or_concat rest with rfl | ⟨rest', x, rfl⟩
      · right
        obtain ⟨res, hr, hmem, hdict⟩ := resourcesOf_spec h
        obtain ⟨e, b, hb⟩ := hdict _ ((hmem _ _).2 hat)
        exact ⟨_, hb⟩
      · left
        have hx : x = .str key := by
          have : (Key.str "Resources" :: a :: (rest' ++ [x])).getLast? = (q ++ [Key.str key]).getLast? := by
            rw [← hq, List.concat_eq_append]
          rw [List.getLast?_append, show (Key.str "Resources" :: a :: (rest' ++ [x])) =
            (Key.str "Resources" :: a :: rest') ++ [x] from rfl, List.getLast?_append] at this
          simpa using this
        subst hx
        exact ⟨rest', by rw [List.concat_eq_append] at hat; exact hat⟩
    · cases hs
  · cases hs

theorem search_uses {t g : Val} {key : String} {a : Key} {v : Val} (h : ResourceUses t a key v) :
    ∃ p, (p, v) ∈ searchDeepKeys key t g ∧ sourceOf p = some a := by
  obtain ⟨p, hp⟩ := h
  exact ⟨_, (C27_search_exact ..).2 ⟨Or.inl hp, .str "Resources" :: a :: p, by simp⟩, by simp [sourceOf]⟩

theorem uses_isRes {t : Val} {a : Key} {key : String} {v : Val} (h : ResourceUses t a key v) : IsRes t a := by
  obtain ⟨p, hat⟩ := h
  rw [at_cons] at hat
  obtain ⟨c, hc, hat⟩ := hat
  rw [at_cons] at hat
  obtain ⟨d, hd, _⟩ := hat
  exact ⟨d, (at_cons).2 ⟨c, hc, hd⟩⟩

/-- the names of the resources -/
theorem isRes_iff {t : Val} {res : List (Key × Val)} (hmem : ∀ k v, (k, v) ∈ res ↔ At t [.str "Resources", k] v) {k : Key} :
    IsRes t k ↔ k ∈ res.map Prod.fst := by
  constructor
  · rintro ⟨v, hv⟩
    exact List.mem_map_of_mem (f := Prod.fst) ((hmem k v).2 hv)
  · intro h
    obtain ⟨⟨k', v⟩, hkv, rfl⟩ := List.mem_map.1 h
    exact ⟨v, (hmem _ _).1 hkv⟩

theorem mem_edgeTo {res : List (Key × Val)} (hne : ∀ kv ∈ res, ∃ e b, kv.2 = .dict (e :: b)) {src a b : Key} {s : String}
    {l : List Edge} (h : edgeTo res src (.str s) = .ok l) : (a, b) ∈ l ↔ a = src ∧ b = .str s ∧ b ∈ res.map Prod.fst := by
  rw [edgeTo_str hne] at h
  cases h
  split
  · rename_i hs
    simp only [List.mem_singleton, Prod.mk.injEq]
    constructor
    · rintro ⟨rfl, rfl⟩; exact ⟨rfl, rfl, hs⟩
    · rintro ⟨rfl, rfl, _⟩; exact ⟨rfl, rfl⟩
  · rename_i hs
    simp only [List.not_mem_nil, false_iff, not_and]
    rintro rfl rfl; exact hs

section edges
variable {t g : Val} {res : List (Key × Val)} (h : GraphShape t) (hg : ∀ p v, ¬ At g (.str "Resources" :: p) v)
  (hmem : ∀ k v, (k, v) ∈ res ↔ At t [.str "Resources", k] v) (hne : ∀ kv ∈ res, ∃ e b, kv.2 = .dict (e :: b))
include h hmem hne

omit h hmem in
theorem dependsOn_ok : ∃ r, collectM (dependsOnEdges res) res = .ok r := by
  apply collectM_ok
  rintro ⟨k, v⟩ hkv
  obtain ⟨e, b, hb⟩ := hne _ hkv
  simp only at hb
  subst hb
  simp only [dependsOnEdges, Val.getD]
  apply collectM_ok
  intro x hx
  have : ∃ s, x = .str s := by
    unfold dependsOnNames at hx
    split at hx
    · rw [List.mem_singleton] at hx; exact ⟨_, hx⟩
    · rw [List.mem_filter] at hx
      cases x <;> simp_all
    · cases hx
  obtain ⟨s, rfl⟩ := this
  exact ⟨_, edgeTo_str hne _ _⟩

theorem mem_dependsOn {r : List Edge} (hr : collectM (dependsOnEdges res) res = .ok r) {a b : Key} :
    (a, b) ∈ r ↔ IsRes t b ∧ ∃ s, b = .str s ∧ (At t [.str "Resources", a, .str "DependsOn"] (.str s) ∨
      ∃ xs, At t [.str "Resources", a, .str "DependsOn"] (.list xs) ∧ .str s ∈ xs) := by
  have hdep : ∀ {a : Key} {e b d}, (a, Val.dict (e :: b)) ∈ res →
      (At t [.str "Resources", a, .str "DependsOn"] d ↔ dlookup (Key.str "DependsOn") (e :: b) = some d) := by
    intro a e b d hin
    have hat := (hmem _ _).1 hin
    have hwf : (Val.dict (e :: b)).WF := at_wf hat h.wf
    simp only [Val.WF] at hwf
    rw [show [Key.str "Resources", a, .str "DependsOn"] = [Key.str "Resources", a] ++ [.str "DependsOn"] from rfl]
    constructor
    · intro hd
      rw [List.cons_append, at_cons] at hd
      obtain ⟨c, hc, hd⟩ := hd
      rw [List.cons_append, List.nil_append, at_cons] at hd
      obtain ⟨c', hc', hd⟩ := hd
      have : c' = .dict (e :: b) := by
        have h1 : At t [.str "Resources", a] c' := at_cons.2 ⟨c, hc, hc'⟩
        rw [at_two h.wf hc] at h1 hat
        exact at_unique (at_wf hc h.wf) h1 hat
      subst this
      rw [at_dict_one] at hd
      exact dlookup_of_mem hwf.1 hd
    · intro hd
      rw [at_cons] at hat
      obtain ⟨c, hc, hat⟩ := hat
      rw [List.cons_append, at_cons]
      refine ⟨c, hc, ?_⟩
      rw [List.cons_append, List.nil_append, at_cons]
      exact ⟨_, hat, at_dict_one.2 (dlookup_mem hd)⟩
  rw [mem_collectM hr, isRes_iff hmem]
  constructor
  · rintro ⟨⟨k, v⟩, hkv, l, hl, hin⟩
    obtain ⟨e, bd, hb⟩ := hne _ hkv
    simp only at hb
    subst hb
    simp only [dependsOnEdges, Val.getD] at hl
    rw [mem_collectM hl] at hin
    obtain ⟨x, hx, l', hl', hin⟩ := hin
    cases hd : dlookup (Key.str "DependsOn") (e :: bd) with
    | none => simp [hd, dependsOnNames] at hx
    | some d =>
      rw [hd, Option.getD_some] at hx
      unfold dependsOnNames at hx
      split at hx
      · rename_i s
        rw [List.mem_singleton] at hx
        subst hx
        obtain ⟨rfl, rfl, hb⟩ := (mem_edgeTo hne hl').1 hin
        exact ⟨hb, s, rfl, Or.inl ((hdep hkv).2 hd)⟩
      · rename_i xs
        rw [List.mem_filter] at hx
        obtain ⟨hx, hstr⟩ := hx
        cases x with
        | str s =>
          obtain ⟨rfl, rfl, hb⟩ := (mem_edgeTo hne hl').1 hin
          exact ⟨hb, s, rfl, Or.inr ⟨xs, (hdep hkv).2 hd, hx⟩⟩
        | none => cases hstr
        | bool => cases hstr
        | int => cases hstr
        | flt => cases hstr
        | list => cases hstr
        | dict => cases hstr
      · cases hx
  · rintro ⟨hb, s, rfl, hor⟩
    have hres : ∃ e bd, (a, Val.dict (e :: bd)) ∈ res := by
      have : ∃ d, At t [.str "Resources", a, .str "DependsOn"] d := by
        rcases hor with h | ⟨_, h, _⟩ <;> exact ⟨_, h⟩
      obtain ⟨d, hd⟩ := this
      rw [at_cons] at hd
      obtain ⟨c, hc, hd⟩ := hd
      rw [at_cons] at hd
      obtain ⟨c', hc', _⟩ := hd
      have hin := (hmem _ _).2 (at_cons.2 ⟨c, hc, hc'⟩)
      obtain ⟨e, bd, hbd⟩ := hne _ hin
      simp only at hbd
      subst hbd
      exact ⟨e, bd, hin⟩
    obtain ⟨e, bd, hin⟩ := hres
    have hlo : ∃ l, dependsOnEdges res (a, .dict (e :: bd)) = .ok l := by
      cases hl : dependsOnEdges res (a, .dict (e :: bd)) with
      | ok l => exact ⟨l, rfl⟩
      | error err =>
        exfalso
        simp only [dependsOnEdges, Val.getD] at hl
        obtain ⟨l, hl'⟩ : ∃ l, collectM (edgeTo res a) (dependsOnNames
            ((dlookup (Key.str "DependsOn") (e :: bd)).getD (.list []))) = .ok l := by
          apply collectM_ok
          intro x hx
          have : ∃ s, x = .str s := by
            unfold dependsOnNames at hx
            split at hx
            · rw [List.mem_singleton] at hx; exact ⟨_, hx⟩
            · rw [List.mem_filter] at hx
              cases x <;> simp_all
            · cases hx
          obtain ⟨s, rfl⟩ := this
          exact ⟨_, edgeTo_str hne _ _⟩
        rw [hl] at hl'; cases hl'
    obtain ⟨l, hl⟩ := hlo
    refine ⟨_, hin, l, hl, ?_⟩
    simp only [dependsOnEdges, Val.getD] at hl
    rw [mem_collectM hl]
    refine ⟨.str s, ?_, _, edgeTo_str hne _ _, (mem_edgeTo hne (edgeTo_str hne _ _)).2 ⟨rfl, rfl, hb⟩⟩
    rcases hor with hd | ⟨xs, hd, hx⟩
    · rw [(hdep hin).1 hd]; simp [dependsOnNames]
    · rw [(hdep hin).1 hd]; simp [dependsOnNames, hx]

include hg

omit hmem in
theorem refs_ok : ∃ r, collectM (refEdges res) (searchDeepKeys "Ref" t g) = .ok r := by
  apply collectM_ok
  rintro ⟨p, v⟩ hf
  simp only [refEdges]
  split
  · exact ⟨_, rfl⟩
  · rename_i a ha
    rcases (search_source h hg hf ha).2 with hu | ⟨kvs, rfl⟩
    · obtain ⟨s, rfl⟩ := h.refs _ _ hu
      simp only [isRefName, if_true]
      exact ⟨_, edgeTo_str hne _ _⟩
    · exact ⟨[], rfl⟩

theorem mem_refs {r : List Edge} (hr : collectM (refEdges res) (searchDeepKeys "Ref" t g) = .ok r) {a b : Key} :
    (a, b) ∈ r ↔ IsRes t b ∧ ∃ s, b = .str s ∧ ResourceUses t a "Ref" (.str s) := by
  rw [mem_collectM hr, isRes_iff hmem]
  constructor
  · rintro ⟨⟨p, v⟩, hf, l, hl, hin⟩
    simp only [refEdges] at hl
    split at hl
    · cases hl; cases hin
    · rename_i a' ha
      rcases (search_source h hg hf ha).2 with hu | ⟨kvs, rfl⟩
      · obtain ⟨s, rfl⟩ := h.refs _ _ hu
        simp only [isRefName, if_true] at hl
        obtain ⟨rfl, rfl, hb⟩ := (mem_edgeTo hne hl).1 hin
        exact ⟨hb, s, rfl, hu⟩
      · simp [isRefName] at hl; cases hl; cases hin
  · rintro ⟨hb, s, rfl, hu⟩
    obtain ⟨p, hp, hsrc⟩ := search_uses (g := g) hu
    refine ⟨(p, .str s), hp, _, ?_, (mem_edgeTo hne (edgeTo_str hne a s)).2 ⟨rfl, rfl, hb⟩⟩
    simp only [refEdges, hsrc, isRefName, if_true]
    exact edgeTo_str hne a s

omit hmem hg hne in
/-- the forms of `Fn::GetAtt` -/
theorem getAtt_forms {a : Key} {v : Val} (hu : ResourceUses t a "Fn::GetAtt" v) :
    (∃ s, v = .str s) ∨ (∃ s x, v = .list [.str s, x]) ∨
      ∀ p, sourceOf p = some a → getAttEdges res (p, v) = .ok [] := by
  cases v with
  | str s => exact .inl ⟨s, rfl⟩
  | list l =>
    match l with
    | [x, y] => obtain ⟨s, rfl⟩ := h.getAtts a x y hu; exact .inr (.inl ⟨s, y, rfl⟩)
    | [] => exact .inr (.inr fun p hp => by simp [getAttEdges, hp])
    | [_] => exact .inr (.inr fun p hp => by simp [getAttEdges, hp])
    | _ :: _ :: _ :: _ => exact .inr (.inr fun p hp => by simp [getAttEdges, hp])
  | _ => exact .inr (.inr fun p hp => by simp [getAttEdges, hp])

omit hmem in
theorem getAtts_ok : ∃ r, collectM (getAttEdges res) (searchDeepKeys "Fn::GetAtt" t g) = .ok r := by
  apply collectM_ok
  rintro ⟨p, v⟩ hf
  cases ha : sourceOf p with
  | none => exact ⟨[], by simp only [getAttEdges, ha]⟩
  | some a =>
    rcases (search_source h hg hf ha).2 with hu | ⟨kvs, rfl⟩
    · rcases getAtt_forms h hu (res := res) with ⟨s, rfl⟩ | ⟨s, x, rfl⟩ | hno
      · simp only [getAttEdges, ha]
        split
        · exact ⟨_, edgeTo_str hne _ _⟩
        · exact ⟨_, rfl⟩
      · exact ⟨_, by simp only [getAttEdges, ha]; exact edgeTo_str hne _ _⟩
      · exact ⟨_, hno p ha⟩
    · exact ⟨[], by simp only [getAttEdges, ha]⟩

omit h hmem hne hg in
theorem beforeDot_of {s b : String} {attr : List Char} (hb : '.' ∉ b.toList) (hs : s.toList = b.toList ++ '.' :: attr) :
    '.' ∈ s.toList ∧ beforeDot s = b := by
  have hdot : '.' ∈ s.toList := by rw [hs]; simp
  have := beforeDot_owner (n := s) (b := b.toList) ⟨hb, Or.inr ⟨attr, hs⟩⟩
  rw [if_pos hdot, String.ofList_toList] at this
  exact ⟨hdot, this⟩

theorem mem_getAtts {r : List Edge} (hr : collectM (getAttEdges res) (searchDeepKeys "Fn::GetAtt" t g) = .ok r) {a b : Key} :
    (a, b) ∈ r ↔ IsRes t b ∧ ∃ s, b = .str s ∧ ((∃ x, ResourceUses t a "Fn::GetAtt" (.list [.str s, x])) ∨
      ∃ w attr, ResourceUses t a "Fn::GetAtt" (.str w) ∧ '.' ∉ s.toList ∧ w.toList = s.toList ++ '.' :: attr) := by
  rw [mem_collectM hr, isRes_iff hmem]
  constructor
  · rintro ⟨⟨p, v⟩, hf, l, hl, hin⟩
    cases ha : sourceOf p with
    | none => simp only [getAttEdges, ha] at hl; cases hl; cases hin
    | some a' =>
      rcases (search_source h hg hf ha).2 with hu | ⟨kvs, rfl⟩
      · rcases getAtt_forms h hu (res := res) with ⟨s, rfl⟩ | ⟨s, x, rfl⟩ | hno
        · simp only [getAttEdges, ha] at hl
          split at hl
          · rename_i hdot
            obtain ⟨rfl, rfl, hb⟩ := (mem_edgeTo hne hl).1 hin
            obtain ⟨h1, h2⟩ := owner_exists s.toList
            refine ⟨hb, beforeDot s, rfl, Or.inr ?_⟩
            rcases h2 with h2 | ⟨attr, h2⟩
            · rw [← h2] at h1; exact absurd hdot h1
            · refine ⟨s, attr, hu, ?_, ?_⟩
              · rw [beforeDot, String.toList_ofList]; exact h1
              · rw [beforeDot, String.toList_ofList]; exact h2
          · cases hl; cases hin
        · simp only [getAttEdges, ha] at hl
          obtain ⟨rfl, rfl, hb⟩ := (mem_edgeTo hne hl).1 hin
          exact ⟨hb, s, rfl, Or.inl ⟨x, hu⟩⟩
        · rw [hno p ha] at hl; cases hl; cases hin
      · simp only [getAttEdges, ha] at hl; cases hl; cases hin
  · rintro ⟨hb, s, rfl, ⟨x, hu⟩ | ⟨w, attr, hu, hdot, hw⟩⟩
    · obtain ⟨p, hp, hsrc⟩ := search_uses (g := g) hu
      refine ⟨(p, .list [.str s, x]), hp, _, ?_, (mem_edgeTo hne (edgeTo_str hne a s)).2 ⟨rfl, rfl, hb⟩⟩
      simp only [getAttEdges, hsrc]
      exact edgeTo_str hne a s
    · obtain ⟨p, hp, hsrc⟩ := search_uses (g := g) hu
      refine ⟨(p, .str w), hp, _, ?_, (mem_edgeTo hne (edgeTo_str hne a s)).2 ⟨rfl, rfl, hb⟩⟩
      obtain ⟨h1, h2⟩ := beforeDot_of hdot hw
      simp only [getAttEdges, hsrc, if_pos h1, h2]
      exact edgeTo_str hne a s

omit h hmem hg in
theorem subParams_ok (src : Key) (m : List (Key × Val)) (xs : List String) :
    ∃ r, collectM (subParamEdges res src (.dict m)) xs = .ok r := by
  apply collectM_ok
  intro x _
  simp only [subParamEdges, pyIn]
  split
  · rename_i he; cases he
  · exact ⟨_, rfl⟩
  · exact ⟨_, edgeTo_str hne _ _⟩

omit h hmem hg in
theorem mem_subParams {src : Key} {m : List (Key × Val)} {s : List Char} {r : List Edge}
    (hr : collectM (subParamEdges res src (.dict m)) (findParams s) = .ok r) {a b : Key} :
    (a, b) ∈ r ↔ a = src ∧ b ∈ res.map Prod.fst ∧ ∃ n w, n ∈ findParams s ∧ (∀ v, (Key.str n, v) ∉ m) ∧
      Owner n.toList w ∧ b = .str (String.ofList w) := by
  have hin : ∀ x : String, dhas (Key.str x) m = false ↔ ∀ v, (Key.str x, v) ∉ m := by
    intro x
    rw [← Bool.not_eq_true, dhas_iff]
    simp
  rw [mem_collectM hr]
  constructor
  · rintro ⟨x, hx, l, hl, hmem⟩
    simp only [subParamEdges, pyIn] at hl
    split at hl
    · rename_i he; cases he
    · cases hl; cases hmem
    · rename_i hd
      obtain ⟨rfl, rfl, hb⟩ := (mem_edgeTo hne hl).1 hmem
      refine ⟨rfl, hb, x, _, hx, (hin x).1 (Except.ok.inj hd), owner_exists x.toList, ?_⟩
      rw [beforeDot_owner (owner_exists x.toList)]
  · rintro ⟨rfl, hb, n, w, hn, hm, ho, rfl⟩
    refine ⟨n, hn, _, ?_, (mem_edgeTo hne (edgeTo_str hne a (String.ofList w))).2 ⟨rfl, rfl, hb⟩⟩
    simp only [subParamEdges, pyIn, (hin n).2 hm, beforeDot_owner ho]
    exact edgeTo_str hne _ _

omit hmem in
theorem subs_ok : ∃ r, collectM (subEdges res) (searchDeepKeys "Fn::Sub" t g) = .ok r := by
  apply collectM_ok
  rintro ⟨p, v⟩ hf
  simp only [subEdges]
  split
  · exact ⟨_, rfl⟩
  · rename_i a ha
    rcases (search_source h hg hf ha).2 with hu | ⟨kvs, rfl⟩
    · rcases h.subs _ _ hu with ⟨s, rfl⟩ | ⟨s, m, rfl⟩
      · exact subParams_ok hne _ _ _
      · exact subParams_ok hne _ _ _
    · exact ⟨[], rfl⟩

/-- the edges of `Fn::Sub`, in terms of the parameters the regular expression finds -/
theorem mem_subs {r : List Edge} (hr : collectM (subEdges res) (searchDeepKeys "Fn::Sub" t g) = .ok r) {a b : Key} :
    (a, b) ∈ r ↔ IsRes t b ∧ ∃ s n w, b = .str (String.ofList w) ∧ Owner n.toList w ∧ n ∈ findParams s.toList ∧
      (ResourceUses t a "Fn::Sub" (.str s) ∨ ∃ m, ResourceUses t a "Fn::Sub" (.list [.str s, .dict m]) ∧ ∀ v, (Key.str n, v) ∉ m) := by
  rw [mem_collectM hr, isRes_iff hmem]
  constructor
  · rintro ⟨⟨p, v⟩, hf, l, hl, hin⟩
    simp only [subEdges] at hl
    split at hl
    · cases hl; cases hin
    · rename_i a' ha
      rcases (search_source h hg hf ha).2 with hu | ⟨kvs, rfl⟩
      · rcases h.subs _ _ hu with ⟨s, rfl⟩ | ⟨s, m, rfl⟩
        · obtain ⟨rfl, hb, n, w, hn, _, ho, rfl⟩ := (mem_subParams hne hl).1 hin
          exact ⟨hb, s, n, w, rfl, ho, hn, Or.inl hu⟩
        · obtain ⟨rfl, hb, n, w, hn, hm, ho, rfl⟩ := (mem_subParams hne hl).1 hin
          exact ⟨hb, s, n, w, rfl, ho, hn, Or.inr ⟨m, hu, hm⟩⟩
      · simp at hl; cases hl; cases hin
  · rintro ⟨hb, s, n, w, rfl, ho, hn, hu | ⟨m, hu, hm⟩⟩
    · obtain ⟨p, hp, hsrc⟩ := search_uses (g := g) hu
      obtain ⟨l, hl⟩ := subParams_ok hne a [] (findParams s.toList)
      refine ⟨(p, .str s), hp, l, ?_, (mem_subParams hne hl).2 ⟨rfl, hb, n, w, hn, by simp, ho, rfl⟩⟩
      simp only [subEdges, hsrc]
      exact hl
    · obtain ⟨p, hp, hsrc⟩ := search_uses (g := g) hu
      obtain ⟨l, hl⟩ := subParams_ok hne a m (findParams s.toList)
      refine ⟨(p, _), hp, l, ?_, (mem_subParams hne hl).2 ⟨rfl, hb, n, w, hn, hm, ho, rfl⟩⟩
      simp only [subEdges, hsrc]
      exact hl

end edges

/-- The graph is built without exceptions, each edge is a dependency, and with plain variables each dependency is an edge. -/
theorem graphEdges_spec {t g : Val} (h : GraphShape t) (hg : ∀ p v, ¬ At g (.str "Resources" :: p) v) :
    ∃ E, graphEdges t g = .ok E ∧ (∀ a b, (a, b) ∈ E → Depends t a b) ∧
      (PlainVariables t → ∀ a b, Depends t a b → (a, b) ∈ E) := by
  obtain ⟨res, hres, hmem, hne⟩ := resourcesOf_spec h
  obtain ⟨d, hd⟩ := dependsOn_ok hne
  obtain ⟨r, hr⟩ := refs_ok h hg hne
  obtain ⟨ga, hga⟩ := getAtts_ok h hg hne
  obtain ⟨su, hsu⟩ := subs_ok h hg hne
  refine ⟨d ++ r ++ ga ++ su, by simp only [graphEdges, hres, hd, hr, hga, hsu], ?_, ?_⟩
  · intro a b hin
    simp only [List.mem_append] at hin
    rcases hin with ((hin | hin) | hin) | hin
    · obtain ⟨hb, s, rfl, hor⟩ := (mem_dependsOn h hmem hne hd).1 hin
      have ha : IsRes t a := by
        have : ∃ d, At t [.str "Resources", a, .str "DependsOn"] d := by
          rcases hor with h | ⟨_, h, _⟩ <;> exact ⟨_, h⟩
        obtain ⟨d, hd⟩ := this
        exact uses_isRes (key := "DependsOn") ⟨[], hd⟩
      rcases hor with h1 | ⟨xs, h1, h2⟩
      · exact ⟨ha, hb, s, rfl, .dependsOn h1⟩
      · exact ⟨ha, hb, s, rfl, .dependsOnOne h1 h2⟩
    · obtain ⟨hb, s, rfl, hu⟩ := (mem_refs h hg hmem hne hr).1 hin
      exact ⟨uses_isRes hu, hb, s, rfl, .ref hu⟩
    · obtain ⟨hb, s, rfl, ⟨x, hu⟩ | ⟨w, attr, hu, h1, h2⟩⟩ := (mem_getAtts h hg hmem hne hga).1 hin
      · exact ⟨uses_isRes hu, hb, s, rfl, .getAtt hu⟩
      · exact ⟨uses_isRes hu, hb, s, rfl, .getAttText hu h1 h2⟩
    · obtain ⟨hb, s, n, w, rfl, ho, hn, hu | ⟨m, hu, hm⟩⟩ := (mem_subs h hg hmem hne hsu).1 hin
      · exact ⟨uses_isRes hu, hb, _, rfl, .sub hu (variable_of_token hn) (by rw [String.toList_ofList]; exact ho)⟩
      · exact ⟨uses_isRes hu, hb, _, rfl, .subMap hu (variable_of_token hn)
          (by rw [String.ofList_toList]; exact hm) (by rw [String.toList_ofList]; exact ho)⟩
  · rintro hp a b ⟨_, hb, s, rfl, hneed⟩
    simp only [List.mem_append]
    cases hneed with
    | dependsOn h1 => exact Or.inl (Or.inl (Or.inl ((mem_dependsOn h hmem hne hd).2 ⟨hb, s, rfl, Or.inl h1⟩)))
    | dependsOnOne h1 h2 =>
      exact Or.inl (Or.inl (Or.inl ((mem_dependsOn h hmem hne hd).2 ⟨hb, s, rfl, Or.inr ⟨_, h1, h2⟩⟩)))
    | ref hu => exact Or.inl (Or.inl (Or.inr ((mem_refs h hg hmem hne hr).2 ⟨hb, s, rfl, hu⟩)))
    | getAtt hu => exact Or.inl (Or.inr ((mem_getAtts h hg hmem hne hga).2 ⟨hb, s, rfl, Or.inl ⟨_, hu⟩⟩))
    | getAttText hu h1 h2 =>
      exact Or.inl (Or.inr ((mem_getAtts h hg hmem hne hga).2 ⟨hb, s, rfl, Or.inr ⟨_, _, hu, h1, h2⟩⟩))
    | @sub w n hu hv ho =>
      refine Or.inr ((mem_subs h hg hmem hne hsu).2 ⟨hb, w, String.ofList n, s.toList, by rw [String.ofList_toList],
        by rw [String.toList_ofList]; exact ho, ?_, Or.inl hu⟩)
      exact token_of_variable hv (hp _ _ _ hu (Or.inl rfl) _ hv)
    | @subMap w m n hu hv hm ho =>
      refine Or.inr ((mem_subs h hg hmem hne hsu).2 ⟨hb, w, String.ofList n, s.toList, by rw [String.ofList_toList],
        by rw [String.toList_ofList]; exact ho, ?_, Or.inr ⟨m, hu, hm⟩⟩)
      exact token_of_variable hv (hp _ _ _ hu (Or.inr ⟨_, rfl⟩) _ hv)

/-- **C40** (soundness). For every template of the documented shape the rule ends normally, and each finding stands at a
resource which depends on itself: directly on the resource named in the message, and through it on itself. -/
theorem C40_findings_are_cycles {find : List Edge → Key → Option (List CycleEdge)} (hf : FindsCycles find) {t g : Val}
    (h : GraphShape t) (hg : ∀ p v, ¬ At g (.str "Resources" :: p) v) :
    ∃ ms, circularDependency find t g = .ok ms ∧ ∀ m ∈ ms, ∃ a b, m = ([.str "Resources", a],
      "Circular Dependencies for resource " ++ nameText a ++ ". Circular dependency with [" ++ nameText b ++ "]") ∧
      Depends t a b ∧ Relation.ReflTransGen (Depends t) b a := by
  obtain ⟨res, hres, hmem, hne⟩ := resourcesOf_spec h
  obtain ⟨E, hE, hsound, _⟩ := graphEdges_spec h hg
  refine ⟨_, by simp only [circularDependency, hres, hE]; rfl, ?_⟩
  intro m hm
  obtain ⟨e, he, rfl⟩ := List.mem_map.1 hm
  obtain ⟨n, _, c, hc, hec⟩ := mem_getCycles.1 he
  obtain ⟨x, hx⟩ := hf.sound _ _ _ hc
  obtain ⟨h1, h2, h3⟩ := trail_mem hx e hec
  exact ⟨e.1, e.2.1, rfl, hsound _ _ h1, Relation.ReflTransGen.mono hsound _ _ (h3.trans h2)⟩

/-- The claim in full, for templates of the documented shape. -/
def C40_statement : Prop := ∀ find, FindsCycles find → ∀ t g, GraphShape t → (∀ p v, ¬ At g (.str "Resources" :: p) v) →
  ∃ ms, circularDependency find t g = .ok ms ∧ (ms ≠ [] ↔ ∃ a, Relation.TransGen (Depends t) a a)

/-- **C40** holds when the variables of `Fn::Sub` consist of letters, digits and dots. -/
theorem C40_reported_iff_partial {find : List Edge → Key → Option (List CycleEdge)} (hf : FindsCycles find) {t g : Val}
    (h : GraphShape t) (hg : ∀ p v, ¬ At g (.str "Resources" :: p) v) (hp : PlainVariables t) :
    ∃ ms, circularDependency find t g = .ok ms ∧ (ms ≠ [] ↔ ∃ a, Relation.TransGen (Depends t) a a) := by
  obtain ⟨ms, hms, hcyc⟩ := C40_findings_are_cycles hf h hg
  refine ⟨ms, hms, ?_, ?_⟩
  · intro hne
    obtain ⟨m, hm⟩ := List.exists_mem_of_ne_nil ms hne
    obtain ⟨a, b, _, h1, h2⟩ := hcyc m hm
    exact ⟨a, Relation.TransGen.head' h1 h2⟩
  · rintro ⟨a, ha⟩ hnil
    obtain ⟨res, hres, hmem, hne⟩ := resourcesOf_spec h
    obtain ⟨E, hE, _, hcomp⟩ := graphEdges_spec h hg
    have haE : Relation.TransGen (Rel E) a a := Relation.TransGen.mono (hcomp hp) _ _ ha
    have hares : a ∈ res.map Prod.fst := by
      rw [← isRes_iff hmem]
      cases ha with
      | single h => exact h.1
      | tail _ h => exact h.2.1
    simp only [circularDependency, hres, hE, Except.ok.injEq] at hms
    cases hfind : find E a with
    | none => exact hf.complete _ _ hfind ⟨a, .refl, haE⟩
    | some c =>
      obtain ⟨x, hx⟩ := hf.sound _ _ _ hfind
      obtain ⟨e, he⟩ := List.exists_mem_of_ne_nil c (trail_ne hx)
      have := mem_getCycles.2 ⟨a, hares, c, hfind, he⟩
      rw [hnil, List.map_eq_nil_iff] at hms
      rw [hms] at this
      cases this

/-- The contract of `find_cycle` can be met. -/
theorem findsCycles_exists : ∃ find, FindsCycles find := by
  classical
  have htrail : ∀ (E : List (Key × Key)) x y, Relation.TransGen (Rel E) x y → ∃ c, Trail E x c y := by
    intro E x y h
    induction h using Relation.TransGen.head_induction_on with
    | single h => exact ⟨[(_, _, 0)], .one h⟩
    | head h _ ih => obtain ⟨c, hc⟩ := ih; exact ⟨(_, _, 0) :: c, .cons h hc⟩
  refine ⟨fun E s => if h : ∃ c x, Relation.ReflTransGen (Rel E) s x ∧ Trail E x c x then some h.choose else none, ?_, ?_⟩
  · intro E s c hc
    split at hc
    · rename_i h
      cases hc
      obtain ⟨x, _, hx⟩ := h.choose_spec
      exact ⟨x, hx⟩
    · cases hc
  · intro E s hn
    split at hn
    · cases hn
    · rename_i h
      rintro ⟨x, h1, h2⟩
      obtain ⟨c, hc⟩ := htrail E x x h2
      exact h ⟨c, x, h1, hc⟩

/-- a template whose only resource refers to itself by `Fn::Sub` -/
def selfSub (text : String) : Val :=
  .dict [(.str "Resources", .dict [(.str "A", .dict [(.str "Fn::Sub", .str text)])])]

theorem selfSub_sub {text : String} {a : Key} {v : Val} (h : ResourceUses (selfSub text) a "Fn::Sub" v) :
    a = .str "A" ∧ v = .str text := by
  obtain ⟨p, hp, ha⟩ := search_uses (g := .dict []) h
  have : searchDeepKeys "Fn::Sub" (selfSub text) (.dict []) =
      [([.str "Resources", .str "A", .str "Fn::Sub"], .str text)] := by
    simp [searchDeepKeys, selfSub, searchVal, searchDict]
  rw [this, List.mem_singleton] at hp
  cases hp
  simp [sourceOf] at ha
  exact ⟨ha.symm, rfl⟩

theorem selfSub_none {text : String} {key : String} (hk : key ≠ "Fn::Sub" ∧ key ≠ "Resources" ∧ key ≠ "A") {a : Key} {v : Val} :
    ¬ ResourceUses (selfSub text) a key v := by
  intro h
  obtain ⟨p, hp, ha⟩ := search_uses (g := .dict []) h
  have : searchDeepKeys key (selfSub text) (.dict []) = [] := by
    simp [searchDeepKeys, selfSub, searchVal, searchDict, Ne.symm hk.1, Ne.symm hk.2.1, Ne.symm hk.2.2]
  rw [this] at hp
  cases hp

theorem selfSub_resources {text : String} {s : Val} (h : At (selfSub text) [.str "Resources"] s) :
    s = .dict [(.str "A", .dict [(.str "Fn::Sub", .str text)])] := by
  rw [selfSub, at_dict_one] at h
  simpa using h

theorem selfSub_shape (text : String) : GraphShape (selfSub text) := by
  refine ⟨by simp [selfSub, Val.WF, Val.WFDict], ⟨_, rfl⟩, ?_, ?_, ?_, ?_⟩
  · intro s hs
    exact ⟨_, selfSub_resources hs, by simp⟩
  · intro a v h; exact absurd h (selfSub_none (by decide))
  · intro a x y h; exact absurd h (selfSub_none (by decide))
  · intro a v h; exact Or.inl ⟨_, (selfSub_sub h).2⟩

theorem selfSub_isRes (text : String) : IsRes (selfSub text) (.str "A") :=
  ⟨.dict [(.str "Fn::Sub", .str text)], .key (List.mem_cons_self ..) (.key (List.mem_cons_self ..) .here)⟩

theorem selfSub_uses (text : String) : ResourceUses (selfSub text) (.str "A") "Fn::Sub" (.str text) :=
  ⟨[], .key (List.mem_cons_self ..) (.key (List.mem_cons_self ..) (.key (List.mem_cons_self ..) .here))⟩

theorem empty_globals : ∀ p v, ¬ At (.dict []) (.str "Resources" :: p) v := by
  intro p v h
  rw [at_cons] at h
  obtain ⟨c, hc, _⟩ := h
  rw [at_dict_one] at hc
  cases hc

/-- **C40** does not hold in full: a resource whose own attribute `my_attr` is substituted into it depends on itself, but
the regular expression stops at the underscore. -/
theorem C40_violated : ¬ C40_statement := by
  intro h
  obtain ⟨find, hf⟩ := findsCycles_exists
  obtain ⟨ms, hms, hiff⟩ := h find hf (selfSub "${A.my_attr}") (.dict []) (selfSub_shape _) empty_globals
  have hcyc : ∃ a, Relation.TransGen (Depends (selfSub "${A.my_attr}")) a a := by
    refine ⟨.str "A", .single ⟨selfSub_isRes _, selfSub_isRes _, "A", rfl, ?_⟩⟩
    refine .sub (n := "A.my_attr".toList) (selfSub_uses _) ⟨⟨[], [], by decide⟩, by decide, by decide⟩
      ⟨by decide, Or.inr ⟨"my_attr".toList, by decide⟩⟩
  have hE : graphEdges (selfSub "${A.my_attr}") (.dict []) = .ok [] := by decide +kernel
  have hR : resourcesOf (selfSub "${A.my_attr}") = .ok [(.str "A", .dict [(.str "Fn::Sub", .str "${A.my_attr}")])] := by
    decide +kernel
  simp only [circularDependency, hE, hR, Except.ok.injEq] at hms
  apply hiff.2 hcyc
  rw [← hms, List.map_eq_nil_iff, List.eq_nil_iff_forall_not_mem]
  intro e he
  obtain ⟨n, _, c, hc, hec⟩ := mem_getCycles.1 he
  obtain ⟨x, hx⟩ := hf.sound _ _ _ hc
  have := (trail_mem hx e hec).1
  cases this

/-- The hypotheses of the theorems are met by a template with a cycle. -/
example : PlainVariables (selfSub "${A.Arn}") ∧ Depends (selfSub "${A.Arn}") (.str "A") (.str "A") := by
  constructor
  · intro a s v hu hv n hn c hc
    obtain ⟨_, rfl⟩ := selfSub_sub hu
    have hs : s = "${A.Arn}" := by
      rcases hv with hv | ⟨m, hv⟩
      · cases hv; rfl
      · cases hv
    subst hs
    obtain ⟨⟨pre, post, hpp⟩, _, _⟩ := hn
    have hl : pre = [] := by
      cases pre with
      | nil => rfl
      | cons x pre =>
        have htail : ("{A.Arn}".toList) = pre ++ '$' :: '{' :: n ++ '}' :: post := by
          have := congrArg List.tail hpp
          simpa using this
        have : '$' ∈ "{A.Arn}".toList := by rw [htail]; simp
        exact absurd this (by decide)
    subst hl
    have htail : "A.Arn}".toList = n ++ '}' :: post := by
      have := congrArg (fun l => l.drop 2) hpp
      simpa using this
    have hmem : c ∈ "A.Arn}".toList := by rw [htail]; simp [hc]
    have hne : c ≠ '}' := by
      rintro rfl
      have := congrArg (List.count '}') htail
      rw [List.count_append, List.count_cons_self] at this
      have h1 : List.count '}' "A.Arn}".toList = 1 := by decide
      have h2 : 0 < List.count '}' n := List.count_pos_iff.2 hc
      omega
    revert hmem hne
    have : ∀ c ∈ "A.Arn}".toList, c ≠ '}' → (c.isAlphanum = true ∨ c = '.') := by decide
    exact fun h1 h2 => this c h1 h2
  · refine ⟨selfSub_isRes _, selfSub_isRes _, "A", rfl, ?_⟩
    exact .sub (n := "A.Arn".toList) (selfSub_uses _) ⟨⟨[], [], by decide⟩, by decide, by decide⟩
      ⟨by decide, Or.inr ⟨"Arn".toList, by decide⟩⟩

end CfnLint
