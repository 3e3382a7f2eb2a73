import Verif.Model.ResProps
import Verif.Spec.ResProps
import Verif.Lemmas.Leaves
import Verif.Lemmas.Graph
import Verif.Lemmas.Refs
import Verif.Props.CondGrammar
import Verif.Props.CheckValue
/- Properties of the selection of properties of resources (C76). -/
namespace CfnLint
open Spec

theorem leaf_size {v w : Val} {q : Path} (h : Leaf v q w) : sizeOf w ≤ sizeOf v := by
  induction h with
  | here _ _ => exact Nat.le_refl _
  | left _ ih => unfold fnIf; simp; omega
  | right _ ih => unfold fnIf; simp; omega

theorem selected_at {K : List String} {v w : Val} {p : Path} (h : Selected K v p w) : At v p w := by
  induction h with
  | done => exact .here
  | key hl hm _ ih => exact at_append (leaf_at hl) (.key hm ih)
  | item hl hx _ ih => exact at_append (leaf_at hl) (.idx hx ih)

/-- choosing branches first -/
theorem selected_leaf {k : String} {ks : List String} {v u w : Val} {q p : Path} (h : Leaf v q u) (hs : Selected (k :: ks) u p w) :
    Selected (k :: ks) v (q ++ p) w := by
  have hn := leaf_notIf h
  generalize e : k :: ks = K at hs
  cases hs with
  | done => cases e
  | key hl hm hs =>
    cases e
    obtain ⟨rfl, rfl, -⟩ := (leaf_of_notIf hn.1).1 hl
    exact .key h hm hs
  | item hl hx hs =>
    cases e
    obtain ⟨rfl, rfl, -⟩ := (leaf_of_notIf hn.1).1 hl
    exact .item h hx hs

theorem selected_branch {k : String} {ks : List String} {v w : Val} {p : Path} :
    Selected (k :: ks) v p w ↔ ∃ q u r, Leaf v q u ∧ Selected (k :: ks) u r w ∧ p = q ++ r := by
  constructor
  · intro h
    generalize e : k :: ks = K at h
    cases h with
    | done => cases e
    | key hl hm hs =>
      cases e
      have hn := leaf_notIf hl
      exact ⟨_, _, _, hl, .key (.here hn.1 hn.2) hm hs, rfl⟩
    | item hl hx hs =>
      cases e
      have hn := leaf_notIf hl
      exact ⟨_, _, _, hl, .item (.here hn.1 hn.2) hx hs, rfl⟩
  · rintro ⟨q, u, r, h1, h2, rfl⟩
    exact selected_leaf h1 h2

theorem selected_other {k : String} {ks : List String} {v : Val} (h1 : ∀ kvs, v ≠ .dict kvs) (h2 : ∀ xs, v ≠ .list xs) {p : Path} {w : Val} :
    ¬ Selected (k :: ks) v p w := by
  intro h
  have hn : ¬ IsIf v := fun ⟨x, hx⟩ => h1 _ hx
  generalize e : k :: ks = K at h
  cases h with
  | done => cases e
  | key hl _ _ => exact h1 _ ((leaf_of_notIf hn).1 hl).2.1.symm
  | item hl _ _ => exact h2 _ ((leaf_of_notIf hn).1 hl).2.1.symm

theorem sizeOf_key {k : Key} {v : Val} {kvs : List (Key × Val)} (h : (k, v) ∈ kvs) : sizeOf v < sizeOf (Val.dict kvs) := by
  have h1 := List.sizeOf_lt_of_mem h
  have h2 : sizeOf (k, v) = 1 + sizeOf k + sizeOf v := rfl
  have h3 : sizeOf (Val.dict kvs) = 1 + sizeOf kvs := by simp
  omega

theorem sizeOf_item {x : Val} {xs : List Val} (h : x ∈ xs) : sizeOf x < sizeOf (Val.list xs) := by
  have h1 := List.sizeOf_lt_of_mem h
  have h3 : sizeOf (Val.list xs) = 1 + sizeOf xs := by simp
  omega

/-- the walk finds exactly what is selected -/
theorem subProps_spec {K : List String} {V : Val} (hp : PlainWalk K V) : ∀ (n : Nat) (ks : List String) (u : Val) (path : Path),
    Visits K V ks u → u.WF → "Ref" ∉ ks → sizeOf u < n →
    ∃ r, subProps n ks u path = .ok r ∧ ∀ p w, (p, w) ∈ r ↔ ∃ q, p = path ++ q ∧ Selected ks u q w
  | 0, _, _, _, _, _, _, h => absurd h (Nat.not_lt_zero _)
  | n + 1, [], u, path, _, _, _, _ => by
    refine ⟨_, rfl, fun p w => ?_⟩
    rw [List.mem_singleton]
    constructor
    · rintro h
      cases h
      exact ⟨[], by simp, .done⟩
    · rintro ⟨q, rfl, h⟩
      cases h
      simp
  | n + 1, k :: ks, .dict kvs, path, hv, hw, hR, hn => by
    have hI := hp.object _ _ _ hv
    rw [subProps]
    rw [List.mem_cons, not_or] at hR
    have hsel : ∀ q w, Selected (k :: ks) (.dict kvs) q w ↔ ∃ v r, (Key.str k, v) ∈ kvs ∧ Selected ks v r w ∧ q = .str k :: r := by
      intro q w
      constructor
      · intro h
        generalize e : k :: ks = K' at h
        cases h with
        | done => cases e
        | key hl hm hs =>
          cases e
          obtain ⟨rfl, e2, -⟩ := (leaf_of_notIf hI).1 hl
          cases e2
          exact ⟨_, _, hm, hs, rfl⟩
        | item hl _ _ =>
          have := ((leaf_of_notIf hI).1 hl).2.1
          cases this
      · rintro ⟨v, r, hm, hs, rfl⟩
        refine .key (q := []) (.here hI fun e => ?_) hm hs
        cases e
        simp at hm
        exact hR.1 hm.1.symm
    cases hl : dlookup (Key.str k) kvs with
    | none =>
      refine ⟨[], rfl, fun p w => ?_⟩
      simp only [List.not_mem_nil, hsel, false_iff]
      rintro ⟨q, -, v, r, hm, -⟩
      rw [Val.WF] at hw
      rw [dlookup_of_mem hw.1 hm] at hl
      cases hl
    | some v =>
      have hm := dlookup_mem hl
      obtain ⟨r, hr, hspec⟩ := subProps_spec hp n ks v (path ++ [.str k]) (.key hv hm) (at_wf (at_dict_one.2 hm) hw) hR.2
        (by have := sizeOf_key hm; omega)
      refine ⟨r, hr, fun p w => ?_⟩
      rw [hspec]
      constructor
      · rintro ⟨q, rfl, h⟩
        exact ⟨.str k :: q, by simp, (hsel _ _).2 ⟨v, q, hm, h, rfl⟩⟩
      · rintro ⟨q, rfl, h⟩
        obtain ⟨v', r', hm', h', rfl⟩ := (hsel _ _).1 h
        rw [Val.WF] at hw
        rw [dlookup_of_mem hw.1 hm'] at hl
        cases hl
        exact ⟨r', by simp, h'⟩
  | n + 1, k :: ks, .list xs, path, hv, hw, hR, hn => by
    have hI := hp.object _ _ _ hv
    rw [subProps]
    have hsel : ∀ q w, Selected (k :: ks) (.list xs) q w ↔ ∃ (i : Nat) (x : Val) (r : Path), xs[i]? = some x ∧ Selected (k :: ks) x r w ∧ q = .int i :: r := by
      intro q w
      constructor
      · intro h
        generalize e : k :: ks = K' at h
        cases h with
        | done => cases e
        | key hl _ _ =>
          have := ((leaf_of_notIf hI).1 hl).2.1
          cases this
        | item hl hx hs =>
          cases e
          obtain ⟨rfl, e2, -⟩ := (leaf_of_notIf hI).1 hl
          cases e2
          exact ⟨_, _, _, hx, hs, rfl⟩
      · rintro ⟨i, x, r, hx, hs, rfl⟩
        exact .item (q := []) (.here hI (by intro e; cases e)) hx hs
    have hitem : ∀ xi ∈ xs.zipIdx, ∃ l, subPropItem (subProps n (k :: ks)) path xi = .ok l ∧
        ∀ p w, (p, w) ∈ l ↔ ∃ q, p = path ++ [.int xi.2] ++ q ∧ Selected (k :: ks) xi.1 q w := by
      rintro ⟨x, i⟩ hxi
      have hx := mem_zip_iff.1 hxi
      have hxm : x ∈ xs := List.mem_of_getElem? hx
      have hwx : x.WF := at_wf (.idx (i := i) hx .here) hw
      have hsz := sizeOf_item hxm
      obtain ⟨g1, g2⟩ := hp.items _ _ _ _ hv hxm
      cases x with
      | dict kvs =>
        by_cases h1 : ∃ key a, kvs = [(key, a)]
        · obtain ⟨key, a, rfl⟩ := h1
          rcases g2 key a rfl with h | h
          · obtain ⟨b, hb⟩ := h
            cases hb
            have hcall : ∀ c ∈ condValues a (path ++ [.int i, .str "Fn::If"]), ∃ q, c.1 = path ++ [.int i] ++ q ∧
                Leaf (.dict [(.str "Fn::If", a)]) q c.2 := by
              rintro ⟨p, w⟩ hc
              have hc' : (p, w) ∈ condValues a ((path ++ [.int i]) ++ [.str "Fn::If"]) := by simpa using hc
              exact mem_condValues_leaf.1 hc'
            have hrec : ∀ c ∈ condValues a (path ++ [.int i, .str "Fn::If"]), ∃ l, subProps n (k :: ks) c.2 c.1 = .ok l ∧
                ∀ p w, (p, w) ∈ l ↔ ∃ q, p = c.1 ++ q ∧ Selected (k :: ks) c.2 q w := by
              intro c hc
              obtain ⟨q, -, hl⟩ := hcall c hc
              exact subProps_spec hp n (k :: ks) c.2 c.1 (.item hv hxm hl) (at_wf (leaf_at hl) hwx) hR (by have := leaf_size hl; omega)
            obtain ⟨l, hl⟩ := collectM_ok (f := fun c : Path × Val => subProps n (k :: ks) c.2 c.1)
              (as := condValues a (path ++ [.int i, .str "Fn::If"])) (fun c hc => by
                obtain ⟨l, h, -⟩ := hrec c hc
                exact ⟨l, h⟩)
            refine ⟨l, hl, fun p w => ?_⟩
            rw [mem_collectM hl]
            have hbr : (∃ q, p = path ++ [.int i] ++ q ∧ Selected (k :: ks) (.dict [(.str "Fn::If", a)]) q w) ↔
                ∃ q u r, Leaf (.dict [(.str "Fn::If", a)]) q u ∧ Selected (k :: ks) u r w ∧ p = path ++ [.int i] ++ (q ++ r) := by
              constructor
              · rintro ⟨_, rfl, hs⟩
                obtain ⟨q, u, r, h1, h2, rfl⟩ := selected_branch.1 hs
                exact ⟨q, u, r, h1, h2, rfl⟩
              · rintro ⟨q, u, r, h1, h2, rfl⟩
                exact ⟨_, rfl, selected_branch.2 ⟨q, u, r, h1, h2, rfl⟩⟩
            refine Iff.trans ?_ hbr.symm
            constructor
            · rintro ⟨c, hc, l', hl', hm⟩
              obtain ⟨l'', h1, h2⟩ := hrec c hc
              rw [hl'] at h1
              cases h1
              obtain ⟨q, e, hleaf⟩ := hcall c hc
              obtain ⟨r, rfl, hs⟩ := (h2 p w).1 hm
              exact ⟨q, c.2, r, hleaf, hs, by rw [e, List.append_assoc]⟩
            · rintro ⟨q, u, r, hleaf, hs, rfl⟩
              have hc : (path ++ [.int i] ++ q, u) ∈ condValues a (path ++ [.int i, .str "Fn::If"]) := by
                have := (mem_condValues_leaf (v := a) (path := path ++ [.int i]) (p := path ++ [.int i] ++ q) (w := u)).2 ⟨q, rfl, hleaf⟩
                simpa using this
              obtain ⟨l', h1, h2⟩ := hrec _ hc
              exact ⟨_, hc, l', h1, (h2 _ _).2 ⟨r, by simp, hs⟩⟩
          · have hh := h
            unfold noValue at h
            cases h
            refine ⟨[], rfl, fun p w => ?_⟩
            simp only [List.not_mem_nil, false_iff]
            rintro ⟨q, -, hs⟩
            obtain ⟨q, u, r, hl, -⟩ := selected_branch.1 hs
            have := (leaf_of_notIf (by rintro ⟨_, e⟩; simp at e)).1 hl
            exact this.2.2 hh
        · have hnot : ¬ IsIf (.dict kvs) := fun ⟨b, hb⟩ => h1 (by cases hb; exact ⟨_, _, rfl⟩)
          have hnv : Val.dict kvs ≠ noValue := fun hb => h1 (by unfold noValue at hb; cases hb; exact ⟨_, _, rfl⟩)
          have hcode : subPropItem (subProps n (k :: ks)) path (.dict kvs, i) = subProps n (k :: ks) (.dict kvs) (path ++ [.int i]) := by
            unfold subPropItem
            split
            · rename_i e
              cases e
              exact absurd ⟨_, _, rfl⟩ h1
            · rename_i e
              cases e
              rfl
            · rename_i e
              exact absurd rfl (e _)
          rw [hcode]
          exact subProps_spec hp n (k :: ks) (.dict kvs) (path ++ [.int i]) (.item hv hxm (.here hnot hnv)) hwx hR (by omega)
      | list ys => exact absurd rfl (g1 ys)
      | _ =>
        refine ⟨[], rfl, fun p w => ?_⟩
        simp only [List.not_mem_nil, false_iff]
        rintro ⟨q, -, hs⟩
        exact selected_other (by intro _ e; cases e) (by intro _ e; cases e) hs
    obtain ⟨res, hres⟩ := collectM_ok (f := subPropItem (subProps n (k :: ks)) path) (as := xs.zipIdx) (fun xi hxi => by
      obtain ⟨l, h, -⟩ := hitem xi hxi
      exact ⟨l, h⟩)
    refine ⟨res, hres, fun p w => ?_⟩
    rw [mem_collectM hres]
    simp only [hsel]
    constructor
    · rintro ⟨⟨x, i⟩, hxi, l, hl, hm⟩
      obtain ⟨l', h1, h2⟩ := hitem _ hxi
      rw [hl] at h1
      cases h1
      obtain ⟨q, rfl, hs⟩ := (h2 p w).1 hm
      exact ⟨.int i :: q, by simp, i, x, q, mem_zip_iff.1 hxi, hs, rfl⟩
    · rintro ⟨_, rfl, i, x, r, hx, hs, rfl⟩
      obtain ⟨l', h1, h2⟩ := hitem (x, i) (mem_zip_iff.2 hx)
      exact ⟨_, mem_zip_iff.2 hx, l', h1, (h2 _ _).2 ⟨r, by simp, hs⟩⟩
  | n + 1, k :: ks, .none, _, _, _, _, _ | n + 1, k :: ks, .bool _, _, _, _, _, _ | n + 1, k :: ks, .int _, _, _, _, _, _
  | n + 1, k :: ks, .flt _, _, _, _, _, _ | n + 1, k :: ks, .str _, _, _, _, _, _ => by
    refine ⟨[], rfl, fun p w => ?_⟩
    simp only [List.not_mem_nil, false_iff]
    rintro ⟨q, -, hs⟩
    exact selected_other (by intro _ e; cases e) (by intro _ e; cases e) hs

theorem ofType_iff {t : Val} (hw : t.WF) {ty : String} {name : Key} {props : Val} :
    (∃ r, (name, r) ∈ resourcesOfType [ty] t ∧ dlookup (Key.str "Properties") r = some props) ↔ HasProps t ty name props := by
  simp only [resourcesOfType_iff (List.cons_ne_nil _ _)]
  constructor
  · rintro ⟨r, ⟨top, rs, ty', rfl, h1, h2, h3, h4⟩, h5⟩
    cases List.mem_singleton.1 h4
    exact ⟨rs, r, .key (dlookup_mem h1) .here, h2, dlookup_mem h3, dlookup_mem h5⟩
  · rintro ⟨rs, r, h1, h2, h3, h4⟩
    have hwr : (Val.dict r).WF := at_wf (at_append (p := [.str "Resources"]) h1 (at_dict_one.2 h2)) hw
    generalize e : [Key.str "Resources"] = pr at h1
    cases h1 with
    | here => cases e
    | idx _ _ => cases e
    | @key top _ _ _ _ hm h1 =>
      cases e
      cases h1
      rw [Val.WF] at hw hwr
      exact ⟨r, ⟨top, rs, ty, rfl, dlookup_of_mem hw.1 hm, h2, dlookup_of_mem hwr.1 h3, by simp⟩, dlookup_of_mem hwr.1 h4⟩

theorem hasProps_at {t : Val} {ty : String} {name : Key} {props : Val} (h : HasProps t ty name props) :
    At t [.str "Resources", name, .str "Properties"] props := by
  obtain ⟨rs, r, h1, h2, h3, h4⟩ := h
  exact at_append (p := [.str "Resources"]) h1 (.key h2 (.key h4 .here))

theorem at_size {t v : Val} {p : Path} (h : At t p v) : sizeOf v ≤ sizeOf t := by
  induction h with
  | here => exact Nat.le_refl _
  | key hm _ ih => have := sizeOf_key hm; omega
  | idx hx _ ih => have := sizeOf_item (List.mem_of_getElem? hx); omega

/-- (C76) exactly the values the keys lead to are returned, each with its place: for resources with properties, walks without
conditions in place of objects and lists of objects that do not have a single key -/
theorem C76_exact_partial {t : Val} (hw : t.WF) {ty : String} {keys : List String} (hR : "Ref" ∉ keys) {n : Nat} (hn : sizeOf t < n)
    (hp : ∀ name props, HasProps t ty name props → PlainWalk keys props ∧ ∃ kv kvs, props = .dict (kv :: kvs)) :
    ∃ res, resourceProperties n ty keys t = .ok res ∧ ∀ p w, (p, w) ∈ res ↔
      ∃ name props q, HasProps t ty name props ∧ Selected keys props q w ∧ p = [.str "Resources", name, .str "Properties"] ++ q := by
  have hstep : ∀ nr ∈ resourcesOfType [ty] t, ∃ l,
      (let props := (dlookup (Key.str "Properties") nr.2).getD .none
       if props.truthy then subProps n keys props [.str "Resources", nr.1, .str "Properties"] else .ok []) = .ok l ∧
      ∀ p w, (p, w) ∈ l ↔ ∃ props q, dlookup (Key.str "Properties") nr.2 = some props ∧ Selected keys props q w ∧
        p = [.str "Resources", nr.1, .str "Properties"] ++ q := by
    rintro ⟨name, r⟩ hm
    cases hl : dlookup (Key.str "Properties") r with
    | none =>
      refine ⟨[], by simp [Val.truthy], fun p w => ?_⟩
      simp
    | some props =>
      have hh : HasProps t ty name props := (ofType_iff hw).1 ⟨r, hm, hl⟩
      obtain ⟨hwalk, kv, kvs, rfl⟩ := hp name props hh
      have hat := hasProps_at hh
      obtain ⟨l, h1, h2⟩ := subProps_spec hwalk n keys _ [.str "Resources", name, .str "Properties"] .start (at_wf hat hw) hR
        (Nat.lt_of_le_of_lt (at_size hat) hn)
      refine ⟨l, ?_, fun p w => ?_⟩
      · simp only [Option.getD_some]
        rw [if_pos (by rfl)]
        exact h1
      · rw [h2]
        constructor
        · rintro ⟨q, rfl, h⟩
          exact ⟨_, q, rfl, h, rfl⟩
        · rintro ⟨_, q, e, h, rfl⟩
          cases e
          exact ⟨q, rfl, h⟩
  unfold resourceProperties
  obtain ⟨res, hres⟩ := collectM_ok (f := fun nr : Key × List (Key × Val) =>
    let props := (dlookup (Key.str "Properties") nr.2).getD .none
    if props.truthy then subProps n keys props [.str "Resources", nr.1, .str "Properties"] else .ok []) (as := resourcesOfType [ty] t)
    (fun nr h => by
      obtain ⟨l, h1, -⟩ := hstep nr h
      exact ⟨l, h1⟩)
  refine ⟨res, hres, fun p w => ?_⟩
  rw [mem_collectM hres]
  constructor
  · rintro ⟨⟨name, r⟩, hm, l, hl, hmem⟩
    obtain ⟨l', h1, h2⟩ := hstep _ hm
    rw [hl] at h1
    cases h1
    obtain ⟨props, q, h3, h4, rfl⟩ := (h2 p w).1 hmem
    exact ⟨name, props, q, (ofType_iff hw).1 ⟨r, hm, h3⟩, h4, rfl⟩
  · rintro ⟨name, props, q, h1, h2, rfl⟩
    obtain ⟨r, hm, hl⟩ := (ofType_iff hw).2 h1
    obtain ⟨l, h3, h4⟩ := hstep _ hm
    exact ⟨_, hm, l, h3, (h4 _ _).2 ⟨props, q, hl, h2, rfl⟩⟩

/-- (C76) the statement for all templates -/
def C76_statement : Prop := ∀ (t : Val) (ty : String) (keys : List String), t.WF → ∃ n res, resourceProperties n ty keys t = .ok res ∧
  ∀ p w, (p, w) ∈ res ↔
    ∃ name props q, HasProps t ty name props ∧ Selected keys props q w ∧ p = [.str "Resources", name, .str "Properties"] ++ q

/-- (C76) what is returned stands where it is said to stand, under the same conditions -/
theorem C76_places_partial {t : Val} (hw : t.WF) {ty : String} {keys : List String} (hR : "Ref" ∉ keys) {n : Nat} (hn : sizeOf t < n)
    (hp : ∀ name props, HasProps t ty name props → PlainWalk keys props ∧ ∃ kv kvs, props = .dict (kv :: kvs)) {res : List (Path × Val)}
    (hr : resourceProperties n ty keys t = .ok res) : ∀ p w, (p, w) ∈ res → At t p w := by
  obtain ⟨res', hr', h⟩ := C76_exact_partial hw hR hn hp
  rw [hr] at hr'
  cases hr'
  intro p w hm
  obtain ⟨name, props, q, h1, h2, rfl⟩ := (h p w).1 hm
  exact at_append (hasProps_at h1) (selected_at h2)

/-- a template with one resource of the type `T` -/
def exTyped (props : Val) : Val :=
  .dict [(.str "Resources", .dict [(.str "R", .dict [(.str "Type", .str "T"), (.str "Properties", props)])])]

theorem exTyped_has {props : Val} : HasProps (exTyped props) "T" (.str "R") props :=
  ⟨_, _, .key List.mem_cons_self .here, List.mem_cons_self, List.mem_cons_self, List.mem_cons_of_mem _ List.mem_cons_self⟩

theorem exTyped_only {props : Val} (hw : (exTyped props).WF) {name : Key} {v : Val} (h : HasProps (exTyped props) "T" name v) :
    name = .str "R" ∧ v = props := by
  obtain ⟨rs, r, h1, h2, h3, h4⟩ := h
  cases at_det hw (.key List.mem_cons_self .here) h1
  simp at h2
  obtain ⟨rfl, rfl⟩ := h2
  simp at h4
  exact ⟨rfl, h4⟩

theorem selected_dict {k : String} {ks : List String} {kvs : List (Key × Val)} (hI : ¬ IsIf (.dict kvs)) {q : Path} {w : Val}
    (h : Selected (k :: ks) (.dict kvs) q w) : ∃ v r, (Key.str k, v) ∈ kvs ∧ Selected ks v r w ∧ q = .str k :: r := by
  generalize e : k :: ks = K' at h
  cases h with
  | done => cases e
  | key hl hm hs =>
    cases e
    obtain ⟨rfl, e2, -⟩ := (leaf_of_notIf hI).1 hl
    cases e2
    exact ⟨_, _, hm, hs, rfl⟩
  | item hl _ _ =>
    have := ((leaf_of_notIf hI).1 hl).2.1
    cases this

theorem selected_list {k : String} {ks : List String} {xs : List Val} {q : Path} {w : Val}
    (h : Selected (k :: ks) (.list xs) q w) : ∃ x r, x ∈ xs ∧ Selected (k :: ks) x r w := by
  have hI : ¬ IsIf (.list xs) := by rintro ⟨_, e⟩; cases e
  generalize e : k :: ks = K' at h
  cases h with
  | done => cases e
  | key hl _ _ =>
    have := ((leaf_of_notIf hI).1 hl).2.1
    cases this
  | item hl hx hs =>
    cases e
    obtain ⟨rfl, e2, -⟩ := (leaf_of_notIf hI).1 hl
    cases e2
    exact ⟨_, _, List.mem_of_getElem? hx, hs⟩

/-- an element with a single key -/
def exSingle : Val := .dict [(.str "A", .list [.dict [(.str "C", .dict [(.str "B", .int 1)])]])]

theorem exSingle_wf : (exTyped exSingle).WF := by simp [exTyped, exSingle, Val.WF, Val.WFDict, Val.WFList]

theorem exSingle_result (n : Nat) : resourceProperties (n + 10) "T" ["A", "B"] (exTyped exSingle) =
    .ok [([.str "Resources", .str "R", .str "Properties", .str "A", .str "C", .str "B"], .int 1)] := by rfl

/-- (C76) the value of the single key of an element is taken in place of the element, and its path lacks the index: what is returned is
not what the keys lead to, and there is nothing at its path -/
theorem C76_index_violated (n : Nat) : ∃ res p w, resourceProperties (n + 10) "T" ["A", "B"] (exTyped exSingle) = .ok res ∧ (p, w) ∈ res ∧
    (∀ w, ¬ At (exTyped exSingle) p w) ∧ ∀ q w, ¬ Selected ["A", "B"] exSingle q w := by
  refine ⟨_, _, _, exSingle_result n, List.mem_cons_self, ?_, ?_⟩
  · intro w h
    obtain ⟨u, h1, h2⟩ := at_split (p := [.str "Resources", .str "R", .str "Properties", .str "A"]) (q := [.str "C", .str "B"]) h
    have h3 : At (exTyped exSingle) [.str "Resources", .str "R", .str "Properties", .str "A"]
        (.list [.dict [(.str "C", .dict [(.str "B", .int 1)])]]) :=
      at_append (hasProps_at exTyped_has) (.key List.mem_cons_self .here)
    cases at_det exSingle_wf h1 h3
    cases h2
  · intro q w h
    obtain ⟨v, r, hm, hs, -⟩ := selected_dict (by rintro ⟨_, e⟩; simp at e) h
    simp at hm
    subst hm
    obtain ⟨x, r, hm, hs⟩ := selected_list hs
    simp at hm
    subst hm
    obtain ⟨v, r, hm, hs, -⟩ := selected_dict (by rintro ⟨_, e⟩; simp at e) hs
    simp at hm

/-- a condition in place of an object -/
def exGap : Val := .dict [(.str "A", fnIf (.str "C") (.dict [(.str "B", .int 1)]) (.dict [(.str "B", .int 2)]))]

/-- (C76) what is behind a condition in place of an object is not found -/
theorem C76_branch_violated (n : Nat) : resourceProperties (n + 10) "T" ["A", "B"] (exTyped exGap) = .ok [] ∧
    Selected ["A", "B"] exGap [.str "A", .str "Fn::If", .int 1, .str "B"] (.int 1) := by
  refine ⟨by rfl, ?_⟩
  refine .key (q := []) (.here (by rintro ⟨_, e⟩; simp [exGap] at e) (by intro e; simp [noValue, exGap] at e)) List.mem_cons_self ?_
  refine .key (q := [.str "Fn::If", .int 1]) (.left (.here (by rintro ⟨_, e⟩; simp at e) (by intro e; simp [noValue] at e))) List.mem_cons_self .done

theorem C76_violated : ¬ C76_statement := by
  intro h
  have hw : (exTyped exGap).WF := by simp [exTyped, exGap, fnIf, Val.WF, Val.WFDict, Val.WFList]
  obtain ⟨n, res, hr, h'⟩ := h (exTyped exGap) "T" ["A", "B"] hw
  have hs := (C76_branch_violated 0).2
  have hm := (h' _ _).2 ⟨.str "R", exGap, _, exTyped_has, hs, rfl⟩
  match n, hr with
  | 0, hr => cases hr
  | 1, hr => cases hr
  | n + 2, hr =>
    have : resourceProperties (n + 2) "T" ["A", "B"] (exTyped exGap) = .ok [] := by rfl
    rw [this] at hr
    cases hr
    cases hm

/-- a list of objects with several keys and a condition -/
def exPlainWalk : Val :=
  .dict [(.str "A", .list [.dict [(.str "B", .int 1), (.str "C", .int 2)], fnIf (.str "X") (.dict [(.str "B", .int 3)]) noValue, .str "x"])]

example : (exTyped exPlainWalk).WF := by simp [exTyped, exPlainWalk, fnIf, noValue, Val.WF, Val.WFDict, Val.WFList]
example : resourceProperties 100 "T" ["A", "B"] (exTyped exPlainWalk) = .ok [
    ([.str "Resources", .str "R", .str "Properties", .str "A", .int 0, .str "B"], .int 1),
    ([.str "Resources", .str "R", .str "Properties", .str "A", .int 1, .str "Fn::If", .int 1, .str "B"], .int 3)] := by rfl

/-- the values met in the example -/
theorem exPlainWalk_visits {ks : List String} {u : Val} (h : Visits ["A", "B"] exPlainWalk ks u) :
    (ks = ["A", "B"] ∧ u = exPlainWalk) ∨
    (ks = ["B"] ∧ u = .list [.dict [(.str "B", .int 1), (.str "C", .int 2)], fnIf (.str "X") (.dict [(.str "B", .int 3)]) noValue, .str "x"]) ∨
    (ks = ["B"] ∧ (u = .dict [(.str "B", .int 1), (.str "C", .int 2)] ∨ u = .dict [(.str "B", .int 3)] ∨ u = .str "x")) ∨ ks = [] := by
  induction h with
  | start => exact .inl ⟨rfl, rfl⟩
  | key h hm ih =>
    rcases ih with ⟨e, e'⟩ | ⟨e, e'⟩ | ⟨e, e'⟩ | e
    · cases e
      cases e'
      simp at hm
      exact .inr (.inl ⟨rfl, hm⟩)
    · cases e'
    · cases e
      exact .inr (.inr (.inr rfl))
    · cases e
  | item h hx hl ih =>
    rcases ih with ⟨e, e'⟩ | ⟨e, e'⟩ | ⟨e, e'⟩ | e
    · cases e'
    · cases e
      cases e'
      refine .inr (.inr (.inl ⟨rfl, ?_⟩))
      simp only [List.mem_cons, List.not_mem_nil, or_false] at hx
      rcases hx with rfl | rfl | rfl
      · have := (leaf_of_notIf (by rintro ⟨_, e⟩; simp at e)).1 hl
        exact .inl this.2.1
      · rcases leaf_fnIf.1 hl with ⟨q, -, hl⟩ | ⟨q, -, hl⟩
        · have := (leaf_of_notIf (by rintro ⟨_, e⟩; simp at e)).1 hl
          exact .inr (.inl this.2.1)
        · have := (leaf_of_notIf (by rintro ⟨_, e⟩; simp [noValue] at e)).1 hl
          exact absurd rfl this.2.2
      · have := (leaf_of_notIf (by rintro ⟨_, e⟩; simp at e)).1 hl
        exact .inr (.inr this.2.1)
    · rcases e' with e' | e' | e' <;> cases e'
    · cases e

example : PlainWalk ["A", "B"] exPlainWalk where
  object := by
    intro k ks u h
    rcases exPlainWalk_visits h with ⟨-, rfl⟩ | ⟨-, rfl⟩ | ⟨-, rfl | rfl | rfl⟩ | e
    · rintro ⟨_, e⟩; simp [exPlainWalk] at e
    · rintro ⟨_, e⟩; simp at e
    · rintro ⟨_, e⟩; simp at e
    · rintro ⟨_, e⟩; simp at e
    · rintro ⟨_, e⟩; simp at e
    · cases e
  items := by
    intro k ks xs x h hx
    rcases exPlainWalk_visits h with ⟨-, e⟩ | ⟨-, e⟩ | ⟨-, e | e | e⟩ | e
    · simp [exPlainWalk] at e
    · cases e
      simp only [List.mem_cons, List.not_mem_nil, or_false] at hx
      rcases hx with rfl | rfl | rfl
      · exact ⟨fun _ e => (by cases e), fun _ _ e => (by simp at e)⟩
      · exact ⟨fun _ e => (by cases e), fun _ _ e => .inl ⟨_, rfl⟩⟩
      · exact ⟨fun _ e => (by cases e), fun _ _ e => (by cases e)⟩
    · cases e
    · cases e
    · cases e
    · cases e

end CfnLint
