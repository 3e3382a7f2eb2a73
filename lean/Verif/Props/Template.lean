import Verif.Lemmas.Search
import Verif.Lemmas.Location
import Verif.Lemmas.Leaves
import Verif.Spec.NodeOps
/-
C27–C30: searching keys, locations, values behind Fn::If.
-/
namespace CfnLint
open Spec

/-! ### C27 Deep key search -/

/-- **C27** The results of a search are exactly the entries with that key, each with its path, in the
template and in the saved `Globals`. -/
theorem C27_search_exact (key : String) (t g : Val) (p : Path) (v : Val) :
    (p, v) ∈ searchDeepKeys key t g ↔ (At t p v ∨ At g p v) ∧ ∃ q, p = q ++ [.str key] := by
  unfold searchDeepKeys
  rw [List.mem_append, mem_searchVal, mem_searchVal]
  simp only [List.nil_append, Found]
  constructor
  · rintro (⟨q, rfl, h1, h2⟩ | ⟨q, rfl, h1, h2⟩)
    · exact ⟨.inl h1, h2⟩
    · exact ⟨.inr h1, h2⟩
  · rintro ⟨h1 | h1, h2⟩
    · exact .inl ⟨p, rfl, h1, h2⟩
    · exact .inr ⟨p, rfl, h1, h2⟩

/-- **C27**, in full: every result's path leads from the root of the template to its value and ends in the
key; every occurrence is found; none is found twice. `g` is the saved `Globals` section. -/
def C27_statement : Prop := ∀ (key : String) (t g : Val), t.WF → g.WF →
  (∀ p v, (p, v) ∈ searchDeepKeys key t g ↔ At t p v ∧ ∃ q, p = q ++ [.str key]) ∧
  ((searchDeepKeys key t g).map Prod.fst).Nodup

/-- After a transform, results inside the saved `Globals` have paths which do not lead anywhere. -/
theorem C27_globals_violated : ¬ C27_statement := by
  intro h
  have := (h "Ref" (.dict []) (.dict [(.str "Ref", .str "a")]) (by simp [Val.WF, Val.WFDict])
    (by simp [Val.WF, Val.WFDict])).1 [.str "Ref"] (.str "a")
  have h2 := this.1 (by decide)
  generalize hv : Val.dict [] = v at h2
  obtain ⟨h2, _⟩ := h2
  cases h2 with
  | key hm _ => injection hv with hv; subst hv; cases hm

/-- **C27** holds for templates without a transform (nothing saved). -/
theorem C27_search_partial (key : String) (t : Val) (h : t.WF) :
    (∀ p v, (p, v) ∈ searchDeepKeys key t (.dict []) ↔ At t p v ∧ ∃ q, p = q ++ [.str key]) ∧
    ((searchDeepKeys key t (.dict [])).map Prod.fst).Nodup := by
  have he : searchDeepKeys key t (.dict []) = searchVal key t [] := by
    simp [searchDeepKeys, searchVal, searchDict]
  rw [he]
  refine ⟨fun p v => ?_, searchVal_nodup key t [] h⟩
  rw [mem_searchVal]
  simp [Found]

example : ∃ t : Val, t.WF ∧ (searchDeepKeys "Ref" t (.dict [])).length = 2 :=
  ⟨.dict [(.str "a", .list [.dict [(.str "Ref", .str "x")]]), (.str "Ref", .str "y")],
    by simp [Val.WF, Val.WFDict, Val.WFList], by decide⟩

/-! ### C28 Locations -/

/-- **C28**, in full: for a path that exists, the location is that of the longest prefix of the path whose
last element carries one (none if there is no such prefix). -/
def C28_statement : Prop := ∀ (t : MVal) (p : Path) (v : MVal), MWF t → MAt t p v →
  ∃ r, getLocation t p = .ok r ∧ ∀ s, r = some s ↔ Deepest (Carries t) p s

/-- The empty path, which leads to the template itself, raises. -/
theorem C28_root_violated : ¬ C28_statement := by
  intro h
  obtain ⟨r, hr, _⟩ := h (.dict default [(⟨.str "a", none⟩, .none)]) [] _
    (by simp [MWF, MVal.erase, MVal.eraseDict, Val.WF, Val.WFDict]) .here
  cases hr

/-- The example: `{A: [{5: null}]}` where `A` and the object in the list carry marks and the key 5, being a
number, does not. -/
def itemTemplate : MVal :=
  .dict ⟨0, 0, 9, 9⟩ [(⟨.str "A", some ⟨1, 0, 1, 1⟩⟩,
    .list ⟨2, 0, 3, 0⟩ [.dict ⟨2, 2, 3, 0⟩ [(⟨.int 5, none⟩, .none)]])]

/-- On the way up, the item of a list is passed over although it carries a mark. -/
theorem C28_list_item_violated : ¬ (∀ (t : MVal) (p : Path) (v : MVal), p ≠ [] → MWF t → MAt t p v →
    ∃ r, getLocation t p = .ok r ∧ ∀ s, r = some s ↔ Deepest (Carries t) p s) := by
  intro h
  have hat : MAt itemTemplate [.str "A", .int 0, .int 5] .none :=
    .step (.key (mk := ⟨.str "A", some ⟨1, 0, 1, 1⟩⟩) List.mem_cons_self)
      (.step (.idx (i := 0) rfl) (.step (.key (mk := ⟨.int 5, none⟩) List.mem_cons_self) .here))
  have hw : MWF itemTemplate := by
    simp [MWF, itemTemplate, MVal.erase, MVal.eraseDict, MVal.eraseList, Val.WF, Val.WFDict, Val.WFList]
  obtain ⟨r, hr, hs⟩ := h itemTemplate [.str "A", .int 0, .int 5] _ (by simp) hw hat
  have hr' : r = some ⟨1, 0, 1, 1⟩ := by
    have : getLocation itemTemplate [.str "A", .int 0, .int 5] = .ok (some ⟨1, 0, 1, 1⟩) := rfl
    rw [this] at hr
    injection hr with hr
    exact hr.symm
  obtain ⟨q, hq, hc, hmax⟩ := (hs _).1 hr'
  have hitem : Carries itemTemplate [.str "A", .int 0] ⟨2, 2, 3, 0⟩ :=
    ⟨[.str "A"], .int 0, _, rfl, .step (.key (mk := ⟨.str "A", some ⟨1, 0, 1, 1⟩⟩) List.mem_cons_self) .here,
      .inr (.item (i := 0) rfl .dict)⟩
  have hl := hmax _ _ ⟨[.int 5], rfl⟩ hitem
  -- the prefix found must be [A, 0] or [A, 0, 5]; neither has the mark (1,0)-(1,1)
  have hmarks : ∀ q' s', q' <+: [Key.str "A", Key.int 0, Key.int 5] → 2 ≤ q'.length → Carries itemTemplate q' s' →
      s' = ⟨2, 2, 3, 0⟩ := by
    rintro q' s' hpre hlen hc'
    have h1 : ∀ (c : MVal) k, Child itemTemplate k c → c = .list ⟨2, 0, 3, 0⟩ [.dict ⟨2, 2, 3, 0⟩ [(⟨.int 5, none⟩, .none)]] := by
      intro c k hc
      generalize ht : itemTemplate = t at hc
      cases hc with
      | key hm =>
        injection ht with _ ht; subst ht
        simp only [List.mem_cons, List.not_mem_nil, or_false, Prod.mk.injEq] at hm
        exact hm.2
      | idx hx => cases ht
    have h2 : ∀ (c : MVal) k, Child (.list ⟨2, 0, 3, 0⟩ [.dict ⟨2, 2, 3, 0⟩ [(⟨.int 5, none⟩, .none)]]) k c →
        c = .dict ⟨2, 2, 3, 0⟩ [(⟨.int 5, none⟩, .none)] := by
      intro c k hc
      generalize ht : MVal.list ⟨2, 0, 3, 0⟩ [.dict ⟨2, 2, 3, 0⟩ [(⟨.int 5, none⟩, .none)]] = t at hc
      cases hc with
      | key hm => cases ht
      | @idx _ _ i _ hx =>
        injection ht with _ ht; subst ht
        cases i with
        | zero => simpa using hx.symm
        | succ i => simp at hx
    match q', hpre, hlen, hc' with
    | [], _, hlen, _ => simp at hlen
    | [_], _, hlen, _ => simp at hlen
    | [k1, k2], _, _, hc' =>
      obtain ⟨c, hch, hc2⟩ := carries_cons.1 hc'
      rw [h1 c _ hch, carries_single] at hc2
      rcases hc2 with hc2 | hc2
      · cases hc2
      · generalize ht : MVal.list ⟨2, 0, 3, 0⟩ [.dict ⟨2, 2, 3, 0⟩ [(⟨.int 5, none⟩, .none)]] = t at hc2
        cases hc2 with
        | @item _ _ i _ _ hx hm =>
          injection ht with _ ht; subst ht
          cases i with
          | zero =>
            simp only [List.getElem?_cons_zero, Option.some.injEq] at hx
            subst hx
            cases hm
            rfl
          | succ i => simp at hx
    | [k1, k2, k3], _, _, hc' =>
      obtain ⟨c, hch, hc2⟩ := carries_cons.1 hc'
      rw [h1 c _ hch] at hc2
      obtain ⟨c2, hch2, hc3⟩ := carries_cons.1 hc2
      rw [h2 c2 _ hch2, carries_single] at hc3
      rcases hc3 with hc3 | hc3
      · generalize ht : MVal.dict ⟨2, 2, 3, 0⟩ [(⟨.int 5, none⟩, .none)] = t at hc3
        cases hc3 with
        | key hm hmark =>
          injection ht with _ ht; subst ht
          simp only [List.mem_cons, List.not_mem_nil, or_false, Prod.mk.injEq] at hm
          rw [hm.1] at hmark
          cases hmark
      · cases hc3
    | k1 :: k2 :: k3 :: k4 :: rest, hpre, _, _ =>
      have := hpre.length_le
      simp at this
  have := hmarks q _ hq hl hc
  revert this
  decide

theorem scanText_container {t c : MVal} {k : Key} (h : Child t k c) (k' : Key) : ∃ r, scanText t k' = .ok r := by
  cases h <;> exact ⟨_, rfl⟩

/-- following an existing path never raises a `TypeError` that escapes -/
theorem getLocation_container {t c : MVal} {k : Key} {p : Path} {e : String} (h : Child t k c)
    (hf : Follows t (k :: p)) : getLocation t (k :: p) ≠ .error (.typeError e) := by
  intro heq
  cases p with
  | nil =>
    cases h with
    | key hm =>
      rw [getLocation] at heq
      · cases heq
      · intro _ _ _ h; cases h
    | @idx m xs i x hx =>
      rw [getLocation, listIndex_nat, hx] at heq
      simp only at heq
      split at heq <;> cases heq
  | cons k' rest =>
    obtain ⟨r, hr⟩ := scanText_container h k
    rw [getLocation] at heq
    simp only [hr] at heq
    split at heq <;> first | cases heq | skip
    rename_i h2 _
    exact h2 e rfl

/-- **C28**, what holds: for every existing path but the empty one a location is computed without
an exception. It is that of the last element when that carries one, otherwise that of the deepest enclosing
*object key* that does (`Usable`); missing from the full statement: enclosing list items, and the empty path. -/
theorem C28_location_partial (t : MVal) (p : Path) (v : MVal) (hp : p ≠ []) (hw : MWF t) (h : MAt t p v) :
    ∃ r, getLocation t p = .ok r ∧
      ∀ s, r = some s ↔ Deepest (fun q s => CarriesKey t q s ∨ (q = p ∧ Carries t p s)) p s := by
  rcases getLocation_spec p t hp hw (follows_of_mat hw h) with h1 | ⟨e, he, _⟩
  · exact h1
  · cases h with
    | here => exact absurd rfl hp
    | step hc h => exact absurd he (getLocation_container hc (follows_of_mat hw (.step hc h)))

/-- **C28** When the last element carries a location, that is the one reported. -/
theorem C28_last_element (t : MVal) (p : Path) (v : MVal) (s : Span) (hw : MWF t) (h : MAt t p v)
    (hs : Carries t p s) : getLocation t p = .ok (some s) := by
  have hp : p ≠ [] := by rintro rfl; exact carries_nil hs
  obtain ⟨r, hr, hd⟩ := C28_location_partial t p v hp hw h
  rw [hr, (hd s).2 ⟨p, List.prefix_rfl, .inr ⟨rfl, hs⟩, fun q' s' hpre _ => hpre.length_le⟩]

/-- **C28** When every element of the path is an object key with a mark or nothing, the full statement holds:
in particular for templates without lists along the path. -/
theorem C28_no_lists (t : MVal) (p : Path) (v : MVal) (hp : p ≠ []) (hw : MWF t) (h : MAt t p v)
    (hd : ∀ q c, q <+: p → MAt t q c → ∀ m xs, c ≠ .list m xs) :
    ∃ r, getLocation t p = .ok r ∧ ∀ s, r = some s ↔ Deepest (Carries t) p s := by
  obtain ⟨r, hr, hs⟩ := C28_location_partial t p v hp hw h
  refine ⟨r, hr, fun s => ?_⟩
  rw [hs]
  have key : ∀ q, q <+: p → ∀ s, (CarriesKey t q s ∨ (q = p ∧ Carries t p s)) ↔ Carries t q s := by
    intro q hq s
    have hsub : Carries t q s → CarriesKey t q s := by
      rintro ⟨q0, k, c, rfl, ha, hk | hi⟩
      · exact ⟨q0, k, c, rfl, ha, hk⟩
      · cases hi with
        | item _ _ => exact absurd rfl (hd q0 _ ((List.prefix_append _ _).trans hq) ha _ _)
    constructor
    · rintro (⟨q0, k, c, rfl, ha, hk⟩ | ⟨rfl, h⟩)
      · exact ⟨q0, k, c, rfl, ha, .inl hk⟩
      · exact h
    · intro h; exact .inl (hsub h)
  constructor
  · rintro ⟨q, hq, hc, hm⟩
    exact ⟨q, hq, (key q hq s).1 hc, fun q' s' hq' hc' => hm q' s' hq' ((key q' hq' s').2 hc')⟩
  · rintro ⟨q, hq, hc, hm⟩
    exact ⟨q, hq, (key q hq s).2 hc, fun q' s' hq' hc' => hm q' s' hq' ((key q' hq' s').1 hc')⟩

/-- **C28** The position of a finding is that location counted from 1, or (1,1,1,1) without one. -/
theorem C28_position (t : MVal) (p : Path) (v : MVal) (hp : p ≠ []) (hw : MWF t) (h : MAt t p v) :
    ∃ r, getLocation t p = .ok r ∧
      matchSpan t p = .ok (match r with
        | some s => (s.sl + 1, s.sc + 1, s.el + 1, s.ec + 1)
        | none => (1, 1, 1, 1)) := by
  obtain ⟨r, hr, _⟩ := C28_location_partial t p v hp hw h
  refine ⟨r, hr, ?_⟩
  unfold matchSpan
  rw [hr]
  cases r <;> rfl

example : ∃ p v s, p ≠ [] ∧ MWF itemTemplate ∧ MAt itemTemplate p v ∧ Carries itemTemplate p s :=
  ⟨[.str "A"], _, ⟨1, 0, 1, 1⟩, by simp,
    by simp [MWF, itemTemplate, MVal.erase, MVal.eraseDict, MVal.eraseList, Val.WF, Val.WFDict, Val.WFList],
    .step (.key (mk := ⟨.str "A", some ⟨1, 0, 1, 1⟩⟩) List.mem_cons_self) .here,
    carries_single.2 (.inl (.key (mk := ⟨.str "A", some ⟨1, 0, 1, 1⟩⟩) List.mem_cons_self rfl))⟩

/-! ### C29 Values behind Fn::If -/

theorem at_append {v u w : Val} {p q : Path} (h : At v p u) (h2 : At u q w) : At v (p ++ q) w := by
  induction h with
  | here => exact h2
  | key hm _ ih => exact .key hm (ih h2)
  | idx hx _ ih => exact .idx hx (ih h2)

theorem leaf_at {v w : Val} {p : Path} (h : Leaf v p w) : At v p w := by
  induction h with
  | here _ _ => exact .here
  | left _ ih => exact .key List.mem_cons_self (.idx (i := 1) rfl ih)
  | right _ ih => exact .key List.mem_cons_self (.idx (i := 2) rfl ih)

theorem propValue_at {v w : Val} {p : Path} (h : PropValue v p w) : At v p w ∧ ¬ IsIf w ∧ w ≠ noValue := by
  obtain ⟨q, u, hl, ⟨_, rfl, rfl⟩ | ⟨xs, i, x, r, rfl, hx, hl2, rfl⟩⟩ := h
  · exact ⟨leaf_at hl, leaf_notIf hl⟩
  · exact ⟨at_append (leaf_at hl) (.idx hx (leaf_at hl2)), leaf_notIf hl2⟩

/-- **C29**, in full: resolving a property whose value is `v` gives exactly the values reached by choosing
branches, each once, with the path at which it stands; none is an `Fn::If` or a reference to
`AWS::NoValue`. -/
def C29_statement : Prop := ∀ (v : Val) (path : Path), v ≠ .none → ∃ n r, getValues n v path = .ok (some r) ∧
  (r.map Prod.fst).Nodup ∧
  (∀ p w, (p, w) ∈ r → ∃ q, p = path ++ q ∧ At v q w ∧ ¬ IsIf w ∧ w ≠ noValue) ∧
  (∀ q w, PropValue v q w → (path ++ q, w) ∈ r)

/-- A null branch (the JSON decoder accepts nulls inside arrays) raises. -/
theorem C29_null_branch_violated : ¬ C29_statement := by
  intro h
  obtain ⟨n, r, hr, _⟩ := h (fnIf (.str "c") .none (.str "b")) [] (by simp [fnIf])
  match n with
  | 0 => cases hr
  | 1 => revert hr; simp [getValues, fnIf, condValues, condItem, extendAll, Except.map]
  | n + 2 =>
    rw [getValues_null (q := [.str "Fn::If", .int 1]) (by simp [fnIf])
      (.left (.here (fun ⟨x, hx⟩ => by simp at hx) (by simp [noValue])))] at hr
    cases hr

/-- **C29**, for values none of whose branches is null. -/
theorem C29_values_partial (v : Val) (path : Path) (h0 : v ≠ .none) (hnull : ∀ q, ¬ Leaf v q .none) :
    ∀ n, ∃ r, getValues (n + 2) v path = .ok (some r) ∧ (r.map Prod.fst).Nodup ∧
      (∀ p w, (p, w) ∈ r → ∃ q, p = path ++ q ∧ At v q w ∧ ¬ IsIf w ∧ w ≠ noValue) ∧
      (∀ q w, PropValue v q w → (path ++ q, w) ∈ r) := by
  intro n
  obtain ⟨r, hr, hn, hm⟩ := getValues_spec (n := n) (path := path) h0 hnull
  refine ⟨r, hr, hn, ?_, ?_⟩
  · intro p w hpw
    obtain ⟨q, rfl, hq⟩ := (hm p w).1 hpw
    exact ⟨q, rfl, propValue_at hq⟩
  · intro q w hq
    exact (hm _ _).2 ⟨q, rfl, hq⟩

/-- **C29** Nothing else is returned: the values are exactly those reached by choosing branches. -/
theorem C29_values_exact (v : Val) (path : Path) (h0 : v ≠ .none) (hnull : ∀ q, ¬ Leaf v q .none) (n : Nat) :
    ∃ r, getValues (n + 2) v path = .ok (some r) ∧
      ∀ p w, (p, w) ∈ r ↔ ∃ q, p = path ++ q ∧ PropValue v q w := by
  obtain ⟨r, hr, _, hm⟩ := getValues_spec (n := n) (path := path) h0 hnull
  exact ⟨r, hr, hm⟩

/-- **C29** A null branch always raises: the hypothesis of the partial theorem is exact. -/
theorem C29_null_raises (v : Val) (path q : Path) (h0 : v ≠ .none) (hq : Leaf v q .none) (n : Nat) :
    getValues (n + 2) v path = .error (.typeError "'NoneType' object is not iterable") :=
  getValues_null h0 hq

example : ∃ v q w, v ≠ .none ∧ (∀ q, ¬ Leaf v q .none) ∧ PropValue v q w := by
  refine ⟨fnIf (.str "c") (.str "a") noValue, [.str "Fn::If", .int 1], .str "a", by simp [fnIf], ?_, ?_⟩
  · intro q h
    rcases leaf_fnIf.1 h with ⟨q, rfl, h2⟩ | ⟨q, rfl, h2⟩
    · have := ((leaf_of_notIf (fun ⟨x, hx⟩ => by simp at hx)).1 h2).2.1
      cases this
    · have := ((leaf_of_notIf (fun ⟨x, hx⟩ => by simp [noValue] at hx)).1 h2).2.1
      cases this
  · exact ⟨_, _, .left (.here (fun ⟨x, hx⟩ => by simp at hx) (by simp [noValue])), .inl ⟨by simp, rfl, rfl⟩⟩

theorem isInst_iff (v : Val) (t : Ty) : v.isInst t = true ↔ IsInstance v t := by
  constructor
  · intro h
    cases v <;> cases t <;> simp [Val.isInst, Val.isDict, Val.isList, Val.isStr, Val.isBool] at h <;> constructor
  · intro h
    cases h <;> rfl

/-! ### C30 items_safe -/

/-- **C30** Iterating an object safely yields exactly its `Fn::If` leaves of the requested types, each with
its path and without the entries that refer to `AWS::NoValue`. -/
theorem C30_items_safe (types : List Ty) (kvs : List (Key × Val)) (path p : Path) (w : Val)
    (hw : (Val.dict kvs).WF) :
    (w, p) ∈ itemsSafe types kvs path ↔
      ∃ q u, Leaf (.dict kvs) q u ∧ p = path ++ q ∧ w = withoutNoValue u ∧
        (types = [] ∨ ∃ t ∈ types, IsInstance u t) := by
  rw [mem_itemsSafe types kvs path p w hw]
  simp only [okType, Bool.or_eq_true, List.any_eq_true, isInst_iff, List.isEmpty_iff, or_comm (b := types = [])]

/-- **C30** Every leaf is yielded once. -/
theorem C30_items_safe_once (types : List Ty) (kvs : List (Key × Val)) (path : Path)
    (hw : (Val.dict kvs).WF) : ((itemsSafe types kvs path).map Prod.snd).Nodup :=
  itemsSafe_nodup types kvs path hw

/-- **C30**, in full about NoValue: a reference to `AWS::NoValue` is never yielded. -/
def C30_statement : Prop := ∀ (types : List Ty) (kvs : List (Key × Val)) (path p : Path) (w : Val),
  (Val.dict kvs).WF → (w, p) ∈ itemsSafe types kvs path → w ≠ noValue

/-- An object `{Ref: AWS::NoValue, X: {Ref: AWS::NoValue}}` loses `X` when cleaned and what is left is a
reference to `AWS::NoValue`. -/
theorem C30_cleaned_to_noValue_violated : ¬ C30_statement := by
  intro h
  have := h [] [(.str "Ref", .str "AWS::NoValue"), (.str "X", noValue)] [] [] noValue
    (by simp [Val.WF, Val.WFDict, noValue]) (by decide)
  exact this rfl

/-- **C30** Objects yielded have no direct entry that refers to `AWS::NoValue`; and unless an object with
`Ref` beside other keys occurs, no reference to `AWS::NoValue` is yielded. -/
theorem C30_never_noValue_partial (types : List Ty) (kvs : List (Key × Val)) (path p : Path) (w : Val)
    (hw : (Val.dict kvs).WF) (h : (w, p) ∈ itemsSafe types kvs path) :
    (∀ kvs', w = .dict kvs' → ∀ kv ∈ kvs', kv.2 ≠ noValue) ∧
    ((∀ q l, Leaf (.dict kvs) q (.dict l) → 2 ≤ l.length → Key.str "Ref" ∉ l.map Prod.fst) → w ≠ noValue) := by
  obtain ⟨q, u, hl, rfl, rfl, hok⟩ := (mem_itemsSafe types kvs path p w hw).1 h
  clear hok
  refine ⟨?_, ?_⟩
  · intro kvs' he kv hkv
    unfold withoutNoValue at he
    split at he
    · injection he with he
      subst he
      simpa using (List.mem_filter.1 hkv).2
    · rename_i hne
      exact absurd he (hne kvs')
  · intro href he
    unfold withoutNoValue at he
    split at he
    · rename_i l
      have he : l.filter (fun kv => decide (kv.2 ≠ noValue)) = [(.str "Ref", .str "AWS::NoValue")] := by
        injection he
      have hmem : (Key.str "Ref", Val.str "AWS::NoValue") ∈ l := by
        have : (Key.str "Ref", Val.str "AWS::NoValue") ∈ l.filter (fun kv => decide (kv.2 ≠ noValue)) := by
          rw [he]; exact List.mem_cons_self
        exact (List.mem_filter.1 this).1
      match l, hl, hmem with
      | [x], hl, hmem =>
        simp only [List.mem_singleton] at hmem
        subst hmem
        exact (leaf_notIf hl).2 rfl
      | x :: y :: r, hl, hmem =>
        exact href q _ hl (by simp) (List.mem_map.2 ⟨_, hmem, rfl⟩)
    · exact (leaf_notIf hl).2 he

/-- **C30** The same for lists: the leaves of the elements, each once. -/
theorem C30_list_items_safe (types : List Ty) (xs : List Val) (path p : Path) (w : Val)
    (hw : Val.WFList xs) :
    (w, p) ∈ listItemsSafe types xs 0 path ↔
      ∃ (j : Nat) (x : Val) (q : Path) (u : Val), xs[j]? = some x ∧ Leaf x q u ∧
        p = path ++ .int j :: q ∧ w = withoutNoValue u ∧ (types = [] ∨ ∃ t ∈ types, IsInstance u t) := by
  rw [mem_listItemsSafe types xs 0 path p w hw]
  simp only [okType, Bool.or_eq_true, List.any_eq_true, isInst_iff, List.isEmpty_iff, or_comm (b := types = []),
    Nat.zero_add]

/-- **C30** `get_safe` of a present key yields exactly the leaves of its value of the requested types. -/
theorem C30_get_safe (kvs : List (Key × Val)) (key : Key) (v dflt : Val) (path p : Path) (types : List Ty)
    (w : Val) (hw : v.WF) (hv : dlookup key kvs = some v) (hne : v ≠ dflt) (hnn : v ≠ .none) :
    ∃ r, getSafe kvs key dflt path types = .ok r ∧ ((w, p) ∈ r ↔
      ∃ q u, Leaf v q u ∧ p = path ++ key :: q ∧ w = withoutNoValue u ∧
        (types = [] ∨ ∃ t ∈ types, IsInstance u t)) := by
  have key' : getSafe kvs key dflt path types = .ok (ifBranch types v (path ++ [key])) := by
    unfold getSafe
    simp only [hv, Option.getD_some]
    rw [if_neg (fun h => hnn h.1), if_neg (by simp [hne])]
    cases v <;> simp [ifBranch]
  refine ⟨_, key', ?_⟩
  rw [mem_ifBranch types v _ _ _ hw]
  simp only [okType, Bool.or_eq_true, List.any_eq_true, isInst_iff, List.isEmpty_iff, or_comm (b := types = []),
    List.append_assoc, List.singleton_append]

/-- **C30** An absent key without default yields nothing. -/
theorem C30_get_safe_absent (kvs : List (Key × Val)) (key : Key) (path : Path) (types : List Ty)
    (hv : dlookup key kvs = none) : getSafe kvs key .none path types = .ok [] := by
  unfold getSafe
  simp [hv]

example : ∃ kvs : List (Key × Val), (Val.dict kvs).WF ∧
    itemsSafe [.str, .dict] kvs [] =
      [(.str "a", [.str "Fn::If", .int 1]),
       (.dict [(.str "k", .int 1)], [.str "Fn::If", .int 2])] :=
  ⟨[(.str "Fn::If", .list [.str "c", .str "a", .dict [(.str "k", .int 1), (.str "n", noValue)]])],
    by simp [Val.WF, Val.WFDict, Val.WFList, noValue], by decide⟩

end CfnLint
