import Verif.Spec.ParamUses
import Verif.Lemmas.EachDeclared
import Verif.Props.ValueSpecs
import Verif.Props.Declared
import Verif.Lemmas.CheckAll
/-
C121: the values of parameters that are used for properties.
-/
namespace CfnLint
open Spec

theorem singleType_iff (ty : String) : singleType ty = true ↔ SingleParam ty := by
  unfold singleType SingleParam startsWith
  have h : ty ∈ ["CommaDelimitedList", "List<String>"] ↔ ty = "CommaDelimitedList" ∨ ty = "List<String>" := by simp
  rw [Bool.and_eq_true, Bool.and_eq_true, Bool.not_eq_true', Bool.not_eq_true', Bool.not_eq_true', ← Bool.not_eq_true, ← Bool.not_eq_true, List.isPrefixOf_iff_prefix, List.isPrefixOf_iff_prefix,
    decide_eq_false_iff_not, h, not_or]
  constructor
  · rintro ⟨⟨a, b⟩, c, -⟩
    exact ⟨a, b, c⟩
  · rintro ⟨a, b, c⟩
    refine ⟨⟨a, b⟩, c, ?_⟩
    rintro rfl
    exact a ⟨"String>".toList, by decide⟩

theorem paramValues_spec {E : PyText} {bad : String → Bool} {k : Key} {o : List (Key × Val)} (hn : (o.map Prod.fst).Nodup)
    (ha : ∀ v, (Key.str "AllowedValues", v) ∈ o → v.truthy = true → ∃ xs, v = .list xs) :
    ∃ l, paramValues E bad k (.dict o) = .ok l ∧ ∀ p, p ∈ l ↔ BadParamValue E (fun s => bad s = true) k o p := by
  have hget : ∀ s v, (Key.str s, v) ∈ o → (dlookup (Key.str s) o).getD .none = v := by
    intro s v h
    rw [dlookup_of_mem hn h]
    rfl
  have hget' : ∀ s, (dlookup (Key.str s) o).getD .none ≠ .none → (Key.str s, (dlookup (Key.str s) o).getD .none) ∈ o := by
    intro s h
    cases hd : dlookup (Key.str s) o with
    | none =>
      rw [hd] at h
      exact absurd rfl h
    | some v => exact dlookup_mem hd
  have hskip : (∀ ty, (Key.str "Type", Val.str ty) ∈ o → ¬ SingleParam ty) → ∀ p, p ∈ ([] : List Path) ↔ BadParamValue E (fun s => bad s = true) k o p := by
    intro h p
    simp only [List.not_mem_nil, false_iff]
    intro hb
    cases hb with
    | allowed a b => exact h _ a b
    | default a b => exact h _ a b
  unfold paramValues
  dsimp only
  by_cases hty : ∃ ty, (dlookup (Key.str "Type") o).getD .none = .str ty
  · obtain ⟨ty, hty⟩ := hty
    have hm := hget' "Type" (by rw [hty]; simp)
    rw [hty] at hm ⊢
    dsimp only
    have hdet : ∀ ty', (Key.str "Type", Val.str ty') ∈ o → ty' = ty := by
      intro ty' h
      have := hget _ _ h
      rw [hty] at this
      exact (Val.str.inj this).symm
    by_cases hs : SingleParam ty
    · rw [if_pos ((singleType_iff ty).2 hs)]
      have hxs : ∃ xs, (if ((dlookup (Key.str "AllowedValues") o).getD .none).truthy then enumerated ((dlookup (Key.str "AllowedValues") o).getD .none) else .ok []) = .ok xs ∧
          ∀ (i : Nat) x, xs[i]? = some x ↔ ∃ ys, (Key.str "AllowedValues", Val.list ys) ∈ o ∧ ys[i]? = some x := by
        by_cases ht : ((dlookup (Key.str "AllowedValues") o).getD .none).truthy = true
        · rw [if_pos ht]
          have hne : (dlookup (Key.str "AllowedValues") o).getD .none ≠ .none := by
            intro e
            rw [e] at ht
            cases ht
          have hm' := hget' _ hne
          obtain ⟨ys, e⟩ := ha _ hm' ht
          rw [e] at hm' ⊢
          refine ⟨ys, rfl, fun i x => ⟨fun h => ⟨ys, hm', h⟩, ?_⟩⟩
          rintro ⟨ys', h1, h2⟩
          have := hget _ _ h1
          rw [e] at this
          cases this
          exact h2
        · rw [if_neg ht]
          refine ⟨[], rfl, fun i x => ⟨fun h => (by cases h), ?_⟩⟩
          rintro ⟨ys, h1, h2⟩
          have := hget _ _ h1
          rw [this] at ht
          cases ys with
          | nil => exact h2
          | cons a l => exact absurd rfl ht
      obtain ⟨xs, e, hx⟩ := hxs
      rw [e]
      refine ⟨_, rfl, fun p => ?_⟩
      rw [List.mem_append, List.mem_flatMap]
      constructor
      · rintro (⟨⟨x, i⟩, h1, h2⟩ | h)
        · by_cases hb : bad (strOf E x) = true
          · rw [if_pos hb, List.mem_singleton] at h2
            subst h2
            obtain ⟨ys, h3, h4⟩ := (hx i x).1 (List.mem_zipIdx_iff_getElem?.1 h1)
            exact .allowed hm hs h3 h4 (by rw [← strOf_eq]; exact hb)
          · rw [if_neg hb] at h2
            cases h2
        · by_cases hb : (((dlookup (Key.str "Default") o).getD .none).truthy && bad (strOf E ((dlookup (Key.str "Default") o).getD .none))) = true
          · rw [if_pos hb, List.mem_singleton] at h
            subst h
            rw [Bool.and_eq_true] at hb
            have hne : (dlookup (Key.str "Default") o).getD .none ≠ .none := by
              intro e
              rw [e] at hb
              cases hb.1
            exact .default hm hs (hget' _ hne) hb.1 (by rw [← strOf_eq]; exact hb.2)
          · rw [if_neg hb] at h
            cases h
      · intro hb
        cases hb with
        | allowed a b c d e' =>
          refine .inl ⟨(_, _), List.mem_zipIdx_iff_getElem?.2 ((hx _ _).2 ⟨_, c, d⟩), ?_⟩
          rw [← strOf_eq] at e'
          rw [if_pos e', List.mem_singleton]
        | default a b c d e' =>
          refine .inr ?_
          rw [hget _ _ c, ← strOf_eq] at *
          rw [if_pos (by rw [d, e']; rfl), List.mem_singleton]
    · rw [if_neg (fun h => hs ((singleType_iff ty).1 h))]
      exact ⟨[], rfl, hskip (fun ty' h => by cases hdet ty' h; exact hs)⟩
  · have hsk := hskip (fun ty h => absurd ⟨ty, hget _ _ h⟩ hty)
    generalize (dlookup (Key.str "Type") o).getD .none = v at hty
    cases v with
    | str ty => exact absurd ⟨ty, rfl⟩ hty
    | _ => exact ⟨[], rfl, hsk⟩

/-- the parameters are objects, and so is the section; the allowed values are lists -/
structure PlainParameters (t : Val) : Prop where
  sect : ∀ v, At t [.str "Parameters"] v → ∃ ps, v = .dict ps
  objects : ∀ n v, ParamIs t n v → ∃ o, v = .dict o
  allowed : ∀ n o v, ParamIs t n (.dict o) → (Key.str "AllowedValues", v) ∈ o → v.truthy = true → ∃ xs, v = .list xs

theorem paramOf_spec {top : List (Key × Val)} (hw : (Val.dict top).WF) (hp : PlainParameters (.dict top)) (s : String) :
    (∃ o, paramOf (.dict top) (.str s) = .ok (some (.str s, .dict o)) ∧ ParamIs (.dict top) (.str s) (.dict o)) ∨
      (paramOf (.dict top) (.str s) = .ok none ∧ ∀ v, ¬ ParamIs (.dict top) (.str s) v) := by
  have hw' := hw
  rw [Val.WF] at hw
  unfold paramOf
  dsimp only [Val.getD]
  cases hl : dlookup (Key.str "Parameters") top with
  | none =>
    refine .inr ⟨rfl, ?_⟩
    rintro v ⟨ps, h, -⟩
    rw [dlookup_of_mem hw.1 (at_dict_one.1 h)] at hl
    cases hl
  | some v =>
    have hv := at_dict_one.2 (dlookup_mem hl)
    obtain ⟨ps, rfl⟩ := hp.sect v hv
    have hn := at_wf hv hw'
    rw [Val.WF] at hn
    rw [Option.getD_some]
    simp only [hashName, Val.toKey?, Option.bind_some]
    cases hd : dlookup (Key.str s) ps with
    | none =>
      refine .inr ⟨rfl, ?_⟩
      rintro v ⟨ps', h1, h2⟩
      cases at_det hw' h1 hv
      rw [dlookup_of_mem hn.1 h2] at hd
      cases hd
    | some v =>
      obtain ⟨o, rfl⟩ := hp.objects _ v ⟨ps, hv, dlookup_mem hd⟩
      exact .inl ⟨o, rfl, ps, hv, dlookup_mem hd⟩

theorem conditioned_spec {top : List (Key × Val)} (hw : (Val.dict top).WF) {name : Key} {r : List (Key × Val)} (hr : ResourceIs (.dict top) name (.dict r)) (rest : Path) :
    conditioned (.dict top) (.str "Resources" :: name :: rest) = .ok (dhas (Key.str "Condition") r) := by
  obtain ⟨rs, h1, h2⟩ := hr
  have hn := at_wf h1 hw
  rw [Val.WF] at hw hn
  unfold conditioned
  dsimp only
  rw [if_pos rfl]
  dsimp only [Val.getD]
  rw [dlookup_of_mem hw.1 (at_dict_one.1 h1), Option.getD_some]
  dsimp only [Val.getK]
  rw [dlookup_of_mem hn.1 h2, Option.getD_some]
  rfl

/-- one use of a parameter -/
theorem paramUse_spec {E : PyText} {top : List (Key × Val)} (hw : (Val.dict top).WF) (hp : PlainParameters (.dict top)) {name : Key} {r : List (Key × Val)}
    (hr : ResourceIs (.dict top) name (.dict r)) (bad : Option (String → Bool)) (s : String) (rest : Path) :
    ∃ l, paramUse E (.dict top) bad (.str s) (.str "Resources" :: name :: rest) = .ok l ∧ ∀ p, p ∈ l ↔
      Key.str "Fn::If" ∉ name :: rest ∧ Key.str "Condition" ∉ r.map Prod.fst ∧
      ∃ b o, bad = some b ∧ ParamIs (.dict top) (.str s) (.dict o) ∧ BadParamValue E (fun s => b s = true) (.str s) o p := by
  unfold paramUse
  have hmem : Key.str "Fn::If" ∈ Key.str "Resources" :: name :: rest ↔ Key.str "Fn::If" ∈ name :: rest := by
    rw [List.mem_cons]
    simp
  by_cases hif : Key.str "Fn::If" ∈ name :: rest
  · rw [if_pos (hmem.2 hif)]
    exact ⟨[], rfl, fun p => ⟨fun h => (by cases h), fun h => absurd hif h.1⟩⟩
  · rw [if_neg (fun h => hif (hmem.1 h)), conditioned_spec hw hr]
    by_cases hc : dhas (Key.str "Condition") r = true
    · rw [hc]
      exact ⟨[], rfl, fun p => ⟨fun h => (by cases h), fun h => absurd (dhas_iff.1 hc) h.2.1⟩⟩
    · have hc' : Key.str "Condition" ∉ r.map Prod.fst := fun h => hc (dhas_iff.2 h)
      rw [Bool.not_eq_true] at hc
      rw [hc]
      dsimp only
      cases bad with
      | none =>
        refine ⟨[], rfl, fun p => ⟨fun h => (by cases h), ?_⟩⟩
        rintro ⟨-, -, b, o, e, -⟩
        cases e
      | some b =>
        dsimp only
        rcases paramOf_spec hw hp s with ⟨o, e, hi⟩ | ⟨e, hi⟩
        · rw [e]
          dsimp only
          obtain ⟨l, h1, h2⟩ := paramValues_spec (E := E) (bad := b) (k := .str s) (paramIs_wf hw hi) (fun v => hp.allowed _ o v hi)
          refine ⟨l, h1, fun p => ?_⟩
          rw [h2]
          constructor
          · exact fun h => ⟨hif, hc', b, o, rfl, hi, h⟩
          · rintro ⟨-, -, b', o', e', hi', h⟩
            cases e'
            obtain ⟨ps, a1, a2⟩ := hi
            obtain ⟨ps', b1, b2⟩ := hi'
            cases at_det hw (at_append a1 (.key a2 .here)) (at_append b1 (.key b2 .here))
            exact h
        · rw [e]
          refine ⟨[], rfl, fun p => ⟨fun h => (by cases h), ?_⟩⟩
          rintro ⟨-, -, b', o, -, h, -⟩
          exact absurd h (hi _)

/-- the loop over the properties of the choices of an object -/
theorem eachDeclared_spec {ρ α : Type} {rows : List (String × ρ)} {f : String → ρ → Val → Path → PyM (List α)} {kvs : List (Key × Val)} {path : Path}
    {P : Path → List (Key × Val) → String → ρ → α → Prop} (hw : (Val.dict kvs).WF) (ho : ∀ q u, Leaf (.dict kvs) q u → ∃ l, u = .dict l)
    (h : ∀ q l s r v, Leaf (.dict kvs) q (.dict l) → (Key.str s, v) ∈ l → v ≠ noValue → dlookup s rows = some r →
      ∃ out, f s r (withoutNoValue (.dict l)) (path ++ q) = .ok out ∧ ∀ x, x ∈ out ↔ P q l s r x) :
    ∃ out, eachDeclared rows f (.dict kvs) path = .ok out ∧ ∀ x, x ∈ out ↔ ∃ q l s r v, Leaf (.dict kvs) q (.dict l) ∧ (Key.str s, v) ∈ l ∧ v ≠ noValue ∧ dlookup s rows = some r ∧ P q l s r x := by
  unfold eachDeclared
  simp only [itemsSafeOf]
  obtain ⟨out, h1, h2⟩ := collectM_spec (as := itemsSafe [] kvs path) (f := fun r => declaredIn rows (fun prop d => f prop d r.1 r.2) r.1)
    (P := fun wp x => ∃ q l s r v, Leaf (.dict kvs) q (.dict l) ∧ wp = (withoutNoValue (.dict l), path ++ q) ∧ (Key.str s, v) ∈ l ∧ v ≠ noValue ∧ dlookup s rows = some r ∧ P q l s r x) (by
    rintro ⟨w, p⟩ hm
    obtain ⟨q, u, hl, rfl, rfl, -⟩ := (mem_itemsSafe [] kvs path p w hw).1 hm
    obtain ⟨l, rfl⟩ := ho q u hl
    obtain ⟨res, h1, h2⟩ := declaredIn_dict (rows := rows) (kvs := l.filter (fun kv => decide (kv.2 ≠ noValue))) (f := fun prop d => f prop d (withoutNoValue (.dict l)) (path ++ q))
      (P := fun s r x => P q l s r x) (by
        intro s r v hv hr
        rw [List.mem_filter] at hv
        exact h q l s r v hl hv.1 (by simpa using hv.2) hr)
    refine ⟨res, h1, fun x => ?_⟩
    rw [h2]
    constructor
    · rintro ⟨s, r, v, hv, hr, hx⟩
      rw [List.mem_filter] at hv
      exact ⟨q, l, s, r, v, hl, rfl, hv.1, by simpa using hv.2, hr, hx⟩
    · rintro ⟨q', l', s, r, v, hl', e, hv, hne, hr, hx⟩
      have hq : q = q' := List.append_cancel_left (Prod.mk.inj e).2
      subst hq
      cases at_det hw (leaf_at hl) (leaf_at hl')
      exact ⟨s, r, v, List.mem_filter.2 ⟨hv, by simpa using hne⟩, hr, hx⟩)
  refine ⟨out, h1, fun x => ?_⟩
  rw [h2]
  constructor
  · rintro ⟨_, _, q, l, s, r, v, hl, -, rest⟩
    exact ⟨q, l, s, r, v, hl, rest⟩
  · rintro ⟨q, l, s, r, v, hl, rest⟩
    exact ⟨_, (mem_itemsSafe [] kvs path _ _ hw).2 ⟨q, _, hl, rfl, rfl, by simp [okType]⟩, q, l, s, r, v, hl, rfl, rest⟩

theorem leaf_not_noValue {v u : Val} {q : Path} (h : Leaf v q u) : u ≠ noValue := by
  induction h with
  | here _ h => exact h
  | left _ ih => exact ih
  | right _ ih => exact ih

theorem leaf_outside {v u : Val} {q : Path} (h : Leaf v q u) (hq : Key.str "Fn::If" ∉ q) : q = [] ∧ u = v := by
  cases h with
  | here => exact ⟨rfl, rfl⟩
  | left => exact absurd List.mem_cons_self hq
  | right => exact absurd List.mem_cons_self hq

/-- the references outside of any `Fn::If` -/
theorem propValue_outside {v : Val} {s : String} (hs : s ≠ "AWS::NoValue") : (∃ q, PropValue v q (.dict [(.str "Ref", .str s)]) ∧ Key.str "Fn::If" ∉ q) ↔
    v = .dict [(.str "Ref", .str s)] ∨ ∃ xs, v = .list xs ∧ Val.dict [(.str "Ref", .str s)] ∈ xs := by
  have hleaf : Leaf (.dict [(.str "Ref", .str s)]) [] (.dict [(.str "Ref", .str s)]) := by
    refine .here ?_ ?_
    · rintro ⟨w, e⟩
      simp at e
    · intro e
      unfold noValue at e
      simp at e
      exact hs e
  constructor
  · rintro ⟨q, ⟨q', u, hl, ⟨hu, rfl, rfl⟩ | ⟨xs, i, x, r, rfl, hx, hl', rfl⟩⟩, hq⟩
    · exact .inl (leaf_outside hl hq).2.symm
    · rw [List.mem_append, not_or, List.mem_cons, not_or] at hq
      obtain ⟨rfl, e⟩ := leaf_outside hl hq.1
      obtain ⟨rfl, e'⟩ := leaf_outside hl' hq.2.2
      subst e'
      exact .inr ⟨xs, e.symm, List.mem_of_getElem? hx⟩
  · rintro (rfl | ⟨xs, rfl, hm⟩)
    · exact ⟨[], ⟨[], _, hleaf, .inl ⟨fun xs e => (by cases e), rfl, rfl⟩⟩, by simp⟩
    · obtain ⟨i, hi⟩ := List.mem_iff_getElem?.1 hm
      refine ⟨[.int i], ⟨[], .list xs, .here (fun ⟨w, e⟩ => by cases e) (fun e => by cases e), .inr ⟨xs, i, _, [], rfl, hi, hleaf, rfl⟩⟩, by simp⟩

/-- `check_value` where the checks hold at the paths of the values only -/
theorem checkValue_at {α : Type} {h : Checks α} {P : Val → Path → α → Prop} {kvs : List (Key × Val)} {key : String} {path : Path}
    (hd : (kvs.map Prod.fst).Nodup) (hnull : ∀ v, (Key.str key, v) ∈ kvs → v ≠ .none ∧ ∀ q, ¬ Leaf v q .none) (n : Nat)
    (hg : ∀ v q u, (Key.str key, v) ∈ kvs → PropValue v q u → ∃ l, checkOne h u (path ++ .str key :: q) = .ok l ∧ ∀ m, m ∈ l ↔ P u (path ++ .str key :: q) m) :
    ∃ res, checkValue (n + 2) h (.dict kvs) key path = .ok res ∧
      ∀ m, m ∈ res ↔ ∃ v q u, (Key.str key, v) ∈ kvs ∧ PropValue v q u ∧ P u (path ++ .str key :: q) m := by
  cases hl : dlookup (Key.str key) kvs with
  | none =>
    refine ⟨[], ?_, fun m => ⟨fun hm => (by cases hm), ?_⟩⟩
    · simp only [checkValue, hl, Option.getD_none]
      rfl
    · rintro ⟨v, q, u, hm, -⟩
      rw [dlookup_of_mem hd hm] at hl
      cases hl
  | some v =>
    have hm := dlookup_mem hl
    obtain ⟨r, hr, -, hm1⟩ := getValues_spec (n := n) (path := []) (hnull v hm).1 (hnull v hm).2
    have hm' : ∀ p w, (p, w) ∈ r ↔ PropValue v p w := by
      intro p w
      rw [hm1]
      simp
    obtain ⟨res, h1, h2⟩ := checkLoop_each (h := h) (path := path ++ [.str key]) (r := r) (acc := [])
      (P := P) (fun p u hp => by
        have := hg v p u hm ((hm' _ _).1 hp)
        simpa only [List.append_assoc, List.cons_append, List.nil_append] using this)
    refine ⟨res, ?_, fun m => ?_⟩
    · simp only [checkValue, hl, Option.getD_some, hr, h1]
    · rw [h2]
      simp only [List.not_mem_nil, false_or, hm', List.append_assoc, List.cons_append, List.nil_append]
      constructor
      · rintro ⟨q, u, h3, h4⟩
        exact ⟨v, q, u, hm, h3, h4⟩
      · rintro ⟨v', q, u, hm', h3, h4⟩
        have := dlookup_of_mem hd hm'
        rw [hl] at this
        cases this
        exact ⟨q, u, h3, h4⟩

/-- the rule, whatever it says of texts -/
theorem paramUseRule_spec (E : PyText) (n : Nat) {top : List (Key × Val)} (hw : (Val.dict top).WF) (hp : PlainParameters (.dict top)) {name : Key} {r : List (Key × Val)}
    (hr : ResourceIs (.dict top) name (.dict r)) (bad : ValueType → Option (String → Bool)) {rows : List (String × ValueRow)} {kvs : List (Key × Val)} (rest : Path)
    (hrows : (rows.map Prod.fst).Nodup) (hwk : (Val.dict kvs).WF) (ho : ∀ q u, Leaf (.dict kvs) q u → ∃ l, u = .dict l)
    (hnull : ∀ q l, Leaf (.dict kvs) q (.dict l) → NoNullProps rows l)
    (htext : ∀ q l prop d v q' x, Leaf (.dict kvs) q (.dict l) → (prop, d) ∈ rows → (Key.str prop, v) ∈ l → PropValue v q' (.dict [(.str "Ref", x)]) → ∃ s, x = .str s) :
    ∃ l, paramUseRule E (n + 2) (.dict top) bad rows (.dict kvs) (.str "Resources" :: name :: rest) = .ok l ∧ ∀ p, p ∈ l ↔
      Key.str "Fn::If" ∉ name :: rest ∧ Key.str "Condition" ∉ r.map Prod.fst ∧ ∃ s vt b o, PropertyUsesParam rows kvs s vt ∧ bad vt = some b ∧ ParamIs (.dict top) (.str s) (.dict o) ∧
        BadParamValue E (fun s => b s = true) (.str s) o p := by
  unfold paramUseRule
  obtain ⟨out, h1, h2⟩ := eachDeclared_spec (rows := rows) (f := fun prop (d : ValueRow) v p =>
    match d.valueType with
    | none => .ok []
    | some vt => checkValue (n + 2) { ref := some (paramUse E (.dict top) (bad vt)) } v prop p) (kvs := kvs) (path := .str "Resources" :: name :: rest)
    (P := fun q l s d p => ∃ vt v q' x, d.valueType = some vt ∧ (Key.str s, v) ∈ l ∧ v ≠ noValue ∧ PropValue v q' (.dict [(.str "Ref", .str x)]) ∧
      Key.str "Fn::If" ∉ name :: (rest ++ q ++ .str s :: q' ++ [.str "Ref"]) ∧ Key.str "Condition" ∉ r.map Prod.fst ∧
      ∃ b o, bad vt = some b ∧ ParamIs (.dict top) (.str x) (.dict o) ∧ BadParamValue E (fun s => b s = true) (.str x) o p) hwk ho (by
    intro q l s d v hl hv hne hd
    cases hvt : d.valueType with
    | none =>
      dsimp only
      refine ⟨[], rfl, fun p => ⟨fun h => (by cases h), ?_⟩⟩
      rintro ⟨vt, _, _, _, e, _⟩
      cases e
    | some vt =>
      dsimp only [withoutNoValue]
      have hnd : (l.map Prod.fst).Nodup := by
        have := at_wf (leaf_at hl) hwk
        rw [Val.WF] at this
        exact this.1
      have hmem : ∀ w, (Key.str s, w) ∈ l.filter (fun kv => decide (kv.2 ≠ noValue)) ↔ (Key.str s, w) ∈ l ∧ w ≠ noValue := by
        intro w
        rw [List.mem_filter]
        simp
      obtain ⟨res, h1, h2⟩ := checkValue_at (h := { ref := some (paramUse E (.dict top) (bad vt)) }) (kvs := l.filter (fun kv => decide (kv.2 ≠ noValue))) (key := s)
        (path := (Key.str "Resources" :: name :: rest) ++ q)
        (P := fun u p m => ∃ x, u = .dict [(.str "Ref", .str x)] ∧ ∃ p', p = .str "Resources" :: name :: p' ∧ Key.str "Fn::If" ∉ name :: (p' ++ [.str "Ref"]) ∧ Key.str "Condition" ∉ r.map Prod.fst ∧
          ∃ b o, bad vt = some b ∧ ParamIs (.dict top) (.str x) (.dict o) ∧ BadParamValue E (fun s => b s = true) (.str x) o m)
        ((List.filter_sublist.map Prod.fst).nodup hnd) (by
          intro w hw'
          exact hnull q l hl s d w (dlookup_mem hd) ((hmem w).1 hw').1) n (by
          intro w q' u hw' hu
          obtain ⟨res, h3, h4⟩ := checkOne_refOnly (g := paramUse E (.dict top) (bad vt)) (u := u) (p := (Key.str "Resources" :: name :: rest) ++ q ++ .str s :: q')
            (Q := fun m => ∃ x, u = .dict [(.str "Ref", .str x)] ∧ Key.str "Fn::If" ∉ name :: (rest ++ q ++ .str s :: q' ++ [.str "Ref"]) ∧ Key.str "Condition" ∉ r.map Prod.fst ∧
              ∃ b o, bad vt = some b ∧ ParamIs (.dict top) (.str x) (.dict o) ∧ BadParamValue E (fun s => b s = true) (.str x) o m) (by
              rintro x rfl
              obtain ⟨x, rfl⟩ := htext q l s d w q' x hl (dlookup_mem hd) ((hmem w).1 hw').1 hu
              obtain ⟨l', h5, h6⟩ := paramUse_spec (E := E) hw hp hr (bad vt) x (rest ++ q ++ .str s :: q' ++ [.str "Ref"])
              refine ⟨l', by simpa only [List.append_assoc, List.cons_append, List.nil_append] using h5, fun m => ?_⟩
              rw [h6]
              constructor
              · exact fun h => ⟨x, rfl, h⟩
              · rintro ⟨x', e, h⟩
                simp only [Val.dict.injEq, List.cons.injEq, Prod.mk.injEq, Val.str.injEq, true_and, and_true] at e
                subst e
                exact h)
          refine ⟨res, h3, fun m => ?_⟩
          rw [h4]
          constructor
          · rintro ⟨-, x, e, h⟩
            exact ⟨x, e, rest ++ q ++ .str s :: q', by simp, h⟩
          · rintro ⟨x, e, p', e', h⟩
            have : p' = rest ++ q ++ .str s :: q' := by
              simp only [List.append_assoc, List.cons_append, List.cons.injEq, true_and] at e' ⊢
              exact e'.symm
            subst this
            exact ⟨⟨_, e⟩, x, e, h⟩)
      refine ⟨res, h1, fun m => ?_⟩
      rw [h2]
      constructor
      · rintro ⟨w, q', u, hw', hu, x, rfl, p', e', h⟩
        have : p' = rest ++ q ++ .str s :: q' := by
          simp only [List.append_assoc, List.cons_append, List.cons.injEq, true_and] at e' ⊢
          exact e'.symm
        subst this
        exact ⟨vt, w, q', x, rfl, ((hmem w).1 hw').1, ((hmem w).1 hw').2, hu, h⟩
      · rintro ⟨vt', w, q', x, e, hw1, hw2, hu, h⟩
        cases e
        exact ⟨w, q', _, (hmem w).2 ⟨hw1, hw2⟩, hu, x, rfl, rest ++ q ++ .str s :: q', by simp, h⟩)
  refine ⟨out, h1, fun p => ?_⟩
  rw [h2]
  constructor
  · rintro ⟨q, l, s, d, -, hl, -, -, hd, vt, v, q', x, hvt, hv, hne, hu, hif, hc, b, o, hb, hi, hbad⟩
    simp only [List.mem_cons, List.mem_append, not_or] at hif
    obtain ⟨hi1, ⟨⟨hi2, hi3⟩, hi4, hi5⟩, -⟩ := hif
    obtain ⟨rfl, e⟩ := leaf_outside hl hi3
    cases e
    have hx : x ≠ "AWS::NoValue" := by
      rintro rfl
      obtain ⟨_, _, hl', ⟨-, -, rfl⟩ | ⟨xs, i, y, r', -, -, hl'', -⟩⟩ := hu
      · exact leaf_not_noValue hl' rfl
      · exact leaf_not_noValue hl'' rfl
    refine ⟨by simp only [List.mem_cons, not_or]; exact ⟨hi1, hi2⟩, hc, x, vt, b, o, ⟨s, d, v, dlookup_mem hd, hvt, ?_, hv, (propValue_outside hx).1 ⟨q', hu, hi5⟩, hx⟩, hb, hi, hbad⟩
    rintro rfl
    exact hi4 rfl
  · rintro ⟨hif, hc, x, vt, b, o, ⟨s, d, v, hd, hvt, hs, hv, hu, hx⟩, hb, hi, hbad⟩
    obtain ⟨q', hu', hq'⟩ := (propValue_outside hx).2 hu
    have hne : v ≠ noValue := by
      rintro rfl
      rcases hu with e | ⟨xs, e, -⟩
      · unfold noValue at e
        simp at e
        exact hx e.symm
      · cases e
    have hni : ¬ IsIf (.dict kvs) := by
      rintro ⟨w, e⟩
      cases e
      simp only [List.mem_singleton, Prod.mk.injEq, Key.str.injEq] at hv
      exact hs hv.1
    refine ⟨[], kvs, s, d, v, ?_, hv, hne, dlookup_of_mem hrows hd, vt, v, q', x, hvt, hv, hne, hu', ?_, hc, b, o, hb, hi, hbad⟩
    · refine .here hni (fun e => ?_)
      unfold noValue at e
      cases e
      simp only [List.mem_singleton, Prod.mk.injEq] at hv
      rcases hu with e | ⟨xs, e, -⟩
      · rw [hv.2] at e
        cases e
      · rw [hv.2] at e
        cases e
    · simp only [List.mem_cons, List.mem_append, not_or] at hif ⊢
      exact ⟨hif.1, ⟨⟨hif.2, by simp⟩, by simpa using fun e => hs e.symm, hq'⟩, by simp⟩

/-- **C121**: the rule on allowed values finds the values of the parameters that the declared properties of an object use outside of any `Fn::If`, where the specification does not list them; nothing in a resource with a condition. -/
theorem C121_allowed (E : PyText) (n : Nat) {top : List (Key × Val)} (hw : (Val.dict top).WF) (hp : PlainParameters (.dict top)) {name : Key} {r : List (Key × Val)}
    (hr : ResourceIs (.dict top) name (.dict r)) {rows : List (String × ValueRow)} {kvs : List (Key × Val)} (rest : Path)
    (hrows : (rows.map Prod.fst).Nodup) (hwk : (Val.dict kvs).WF) (ho : ∀ q u, Leaf (.dict kvs) q u → ∃ l, u = .dict l)
    (hnull : ∀ q l, Leaf (.dict kvs) q (.dict l) → NoNullProps rows l)
    (htext : ∀ q l prop d v q' x, Leaf (.dict kvs) q (.dict l) → (prop, d) ∈ rows → (Key.str prop, v) ∈ l → PropValue v q' (.dict [(.str "Ref", x)]) → ∃ s, x = .str s) :
    ∃ l, paramUseRule E (n + 2) (.dict top) badAllowed rows (.dict kvs) (.str "Resources" :: name :: rest) = .ok l ∧ ∀ p, p ∈ l ↔
      Key.str "Fn::If" ∉ name :: rest ∧ Key.str "Condition" ∉ r.map Prod.fst ∧ ∃ s vt o, PropertyUsesParam rows kvs s vt ∧ ParamIs (.dict top) (.str s) (.dict o) ∧
        BadParamValue E (NotListed vt) (.str s) o p := by
  obtain ⟨l, h1, h2⟩ := paramUseRule_spec E n hw hp hr badAllowed rest hrows hwk ho hnull htext
  refine ⟨l, h1, fun p => ?_⟩
  rw [h2]
  refine and_congr_right (fun _ => and_congr_right (fun _ => exists_congr (fun s => exists_congr (fun vt => ?_))))
  unfold badAllowed
  have hemp : vt.allowed.isEmpty = true ↔ vt.allowed = [] := List.isEmpty_iff
  by_cases he : vt.allowed = []
  · constructor
    · rintro ⟨b, o, -, hb, -⟩
      rw [if_pos (hemp.2 he)] at hb
      cases hb
    · rintro ⟨o, -, -, hb⟩
      cases hb with
      | allowed _ _ _ _ h => exact absurd he h.1
      | default _ _ _ _ h => exact absurd he h.1
  · have hpred : (fun s => (!decide (s ∈ vt.allowed)) = true) = NotListed vt := by
      funext s
      unfold NotListed
      simp [he]
    constructor
    · rintro ⟨b, o, hu, hb, hi, hbad⟩
      rw [if_neg (fun h => he (hemp.1 h))] at hb
      cases hb
      exact ⟨o, hu, hi, hpred ▸ hbad⟩
    · rintro ⟨o, hu, hi, hbad⟩
      exact ⟨_, o, hu, if_neg (fun h => he (hemp.1 h)), hi, hpred ▸ hbad⟩

/-- **C121**: so does the rule on patterns, where the pattern does not match them. -/
theorem C121_pattern (E : PyText) (n : Nat) {top : List (Key × Val)} (hw : (Val.dict top).WF) (hp : PlainParameters (.dict top)) {name : Key} {r : List (Key × Val)}
    (hr : ResourceIs (.dict top) name (.dict r)) {rows : List (String × ValueRow)} {kvs : List (Key × Val)} (rest : Path)
    (hrows : (rows.map Prod.fst).Nodup) (hwk : (Val.dict kvs).WF) (ho : ∀ q u, Leaf (.dict kvs) q u → ∃ l, u = .dict l)
    (hnull : ∀ q l, Leaf (.dict kvs) q (.dict l) → NoNullProps rows l)
    (htext : ∀ q l prop d v q' x, Leaf (.dict kvs) q (.dict l) → (prop, d) ∈ rows → (Key.str prop, v) ∈ l → PropValue v q' (.dict [(.str "Ref", x)]) → ∃ s, x = .str s) :
    ∃ l, paramUseRule E (n + 2) (.dict top) (badPattern E) rows (.dict kvs) (.str "Resources" :: name :: rest) = .ok l ∧ ∀ p, p ∈ l ↔
      Key.str "Fn::If" ∉ name :: rest ∧ Key.str "Condition" ∉ r.map Prod.fst ∧ ∃ s vt o, PropertyUsesParam rows kvs s vt ∧ ParamIs (.dict top) (.str s) (.dict o) ∧
        BadParamValue E (NotMatched E vt) (.str s) o p := by
  obtain ⟨l, h1, h2⟩ := paramUseRule_spec E n hw hp hr (badPattern E) rest hrows hwk ho hnull htext
  refine ⟨l, h1, fun p => ?_⟩
  rw [h2]
  refine and_congr_right (fun _ => and_congr_right (fun _ => exists_congr (fun s => exists_congr (fun vt => ?_))))
  unfold badPattern
  by_cases he : vt.pattern = ""
  · constructor
    · rintro ⟨b, o, -, hb, -⟩
      rw [if_pos he] at hb
      cases hb
    · rintro ⟨o, -, -, hb⟩
      cases hb with
      | allowed _ _ _ _ h => exact absurd he h.1
      | default _ _ _ _ h => exact absurd he h.1
  · have hpred : (fun s => (!E.matches_ vt.pattern s) = true) = NotMatched E vt := by
      funext s
      unfold NotMatched
      simp [he]
    constructor
    · rintro ⟨b, o, hu, hb, hi, hbad⟩
      rw [if_neg he] at hb
      cases hb
      exact ⟨o, hu, hi, hpred ▸ hbad⟩
    · rintro ⟨o, hu, hi, hbad⟩
      exact ⟨_, o, hu, if_neg he, hi, hpred ▸ hbad⟩

/-- **C121**: allowed values that are a number or a truth value have no elements, and the rules raise; so do they for a parameter that is no object. -/
theorem C121_raises {E : PyText} {top : List (Key × Val)} (hw : (Val.dict top).WF) {name : Key} {r : List (Key × Val)} (hr : ResourceIs (.dict top) name (.dict r))
    (hc : Key.str "Condition" ∉ r.map Prod.fst) {rest : Path} (hif : Key.str "Fn::If" ∉ name :: rest) (b : String → Bool) {s : String} {v : Val} (hi : ParamIs (.dict top) (.str s) v)
    (hv : (∀ o, v ≠ .dict o) ∨ ∃ o ty a, v = .dict o ∧ (Key.str "Type", Val.str ty) ∈ o ∧ SingleParam ty ∧ (Key.str "AllowedValues", a) ∈ o ∧ a.truthy = true ∧
      ((∃ i, a = .int i) ∨ a = .bool true)) :
    ∃ e, paramUse E (.dict top) (some b) (.str s) (.str "Resources" :: name :: rest) = .error e := by
  have hmem : Key.str "Fn::If" ∉ Key.str "Resources" :: name :: rest := by
    rw [List.mem_cons, not_or]
    exact ⟨by simp, hif⟩
  have hcf : dhas (Key.str "Condition") r = false := by
    rw [← Bool.not_eq_true]
    exact fun h => hc (dhas_iff.1 h)
  have hpo : paramOf (.dict top) (.str s) = .ok (some (.str s, v)) := by
    obtain ⟨ps, h1, h2⟩ := hi
    have hn := at_wf h1 hw
    rw [Val.WF] at hw hn
    unfold paramOf
    dsimp only [Val.getD]
    rw [dlookup_of_mem hw.1 (at_dict_one.1 h1), Option.getD_some]
    simp only [hashName, Val.toKey?, Option.bind_some]
    rw [dlookup_of_mem hn.1 h2]
    rfl
  unfold paramUse
  rw [if_neg hmem, conditioned_spec hw hr, hcf]
  dsimp only
  rw [hpo]
  dsimp only
  rcases hv with hv | ⟨o, ty, a, rfl, h1, h2, h3, h4, h5⟩
  · unfold paramValues
    cases v with
    | dict o => exact absurd rfl (hv o)
    | _ => exact ⟨_, rfl⟩
  · have hn := paramIs_wf hw hi
    unfold paramValues
    dsimp only
    rw [dlookup_of_mem hn h1, Option.getD_some]
    dsimp only
    rw [if_pos ((singleType_iff ty).2 h2), dlookup_of_mem hn h3, Option.getD_some, if_pos h4]
    rcases h5 with ⟨i, rfl⟩ | rfl <;> exact ⟨_, rfl⟩

/-- a template with a parameter -/
def exParamUse : List (Key × Val) :=
  [(.str "Parameters", .dict [(.str "P", .dict [(.str "Type", .str "String"), (.str "AllowedValues", .list [.str "x", .str "longer"]), (.str "Default", .str "q")])]),
   (.str "Resources", .dict [(.str "R", .dict [(.str "Properties", .dict exValueProps)])])]

theorem exParamUse_wf : (Val.dict exParamUse).WF := by simp [exParamUse, exValueProps, Val.WF, Val.WFDict, Val.WFList]

theorem exParamUse_params : PlainParameters (.dict exParamUse) := by
  have hsec : ∀ ps, At (.dict exParamUse) [.str "Parameters"] ps →
      ps = .dict [(.str "P", .dict [(.str "Type", .str "String"), (.str "AllowedValues", .list [.str "x", .str "longer"]), (.str "Default", .str "q")])] := by
    intro ps h
    have := at_dict_one.1 h
    simpa [exParamUse] using this
  refine ⟨fun v h => ⟨_, hsec v h⟩, ?_, ?_⟩
  · rintro n v ⟨ps, h1, h2⟩
    cases hsec _ h1
    cases List.mem_singleton.1 h2
    exact ⟨_, rfl⟩
  · rintro n o v ⟨ps, h1, h2⟩ h3 -
    cases hsec _ h1
    cases List.mem_singleton.1 h2
    simp at h3
    exact ⟨_, h3⟩

theorem exParamUse_res : ResourceIs (.dict exParamUse) (.str "R") (.dict [(.str "Properties", .dict exValueProps)]) :=
  ⟨_, at_dict_one.2 (List.mem_cons_of_mem _ List.mem_cons_self), List.mem_cons_self⟩

/-- the hypotheses are met, and the rules find the allowed value and the default -/
example (E : PyText) : ∃ l, paramUseRule E 2 (.dict exParamUse) badAllowed exValueRows (.dict exValueProps) [.str "Resources", .str "R", .str "Properties"] = .ok l ∧
    [.str "Parameters", .str "P", .str "AllowedValues", .int 1] ∈ l ∧ [.str "Parameters", .str "P", .str "Default"] ∈ l ∧ [.str "Parameters", .str "P", .str "AllowedValues", .int 0] ∉ l := by
  obtain ⟨l, h1, h2⟩ := C121_allowed E 0 exParamUse_wf exParamUse_params exParamUse_res (rows := exValueRows) (kvs := exValueProps) [.str "Properties"] (by simp [exValueRows]) exValue_wf
    (fun q u h => ⟨_, (exValue_leaf h).2⟩) (fun q l h => by
      cases (exValue_leaf h).2
      exact exValue_null) (by
    intro q l prop d v q' x hl _ hv hu
    cases (exValue_leaf hl).2
    simp only [exValueProps, List.mem_cons, Prod.mk.injEq, List.not_mem_nil, or_false] at hv
    obtain ⟨-, rfl⟩ := hv
    obtain ⟨q1, u, hl1, ⟨hu, -⟩ | ⟨xs, i, y, r', rfl, hx, hl2, -⟩⟩ := hu
    · exact absurd ((leaf_of_notIf (by simp [IsIf])).1 hl1).2.1 (hu _)
    · cases ((leaf_of_notIf (by simp [IsIf])).1 hl1).2.1
      have hm := List.mem_of_getElem? hx
      simp only [List.mem_cons, List.not_mem_nil, or_false] at hm
      rcases hm with rfl | rfl | rfl
      · cases ((leaf_of_notIf (by simp [IsIf])).1 hl2).2.1
      · cases ((leaf_of_notIf (by simp [IsIf])).1 hl2).2.1
      · cases ((leaf_of_notIf (by simp [IsIf])).1 hl2).2.1
        exact ⟨_, rfl⟩)
  have hi : ParamIs (.dict exParamUse) (.str "P") (.dict [(.str "Type", .str "String"), (.str "AllowedValues", .list [.str "x", .str "longer"]), (.str "Default", .str "q")]) :=
    ⟨_, at_dict_one.2 List.mem_cons_self, List.mem_cons_self⟩
  have hu : PropertyUsesParam exValueRows exValueProps "P" ⟨["x", "y"], "[a-z]", some 1, some 3, some (.int 1), some (.int 9)⟩ :=
    ⟨"A", _, _, List.mem_cons_self, rfl, by simp, List.mem_cons_self, .inr ⟨_, rfl, by simp⟩, by simp⟩
  have hs : SingleParam "String" := by unfold SingleParam; decide +kernel
  refine ⟨l, h1, (h2 _).2 ⟨by simp, by simp, _, _, _, hu, hi, .allowed (ty := "String") (xs := [.str "x", .str "longer"]) (x := .str "longer") (by simp) hs (by simp) rfl (by simp [NotListed, valueText])⟩,
    (h2 _).2 ⟨by simp, by simp, _, _, _, hu, hi, .default (ty := "String") (v := .str "q") (by simp) hs (by simp) rfl (by simp [NotListed, valueText])⟩, fun h => ?_⟩
  obtain ⟨-, -, s, vt, o, ⟨prop, d, v, hd, hvt, -⟩, hi', hb⟩ := (h2 _).1 h
  cases List.mem_singleton.1 hd
  cases hvt
  generalize hg : [Key.str "Parameters", .str "P", .str "AllowedValues", .int 0] = p at hb
  cases hb with
  | allowed _ _ h3 h4 h5 =>
    obtain ⟨ps, e1, e2⟩ := hi'
    obtain ⟨ps', e3, e4⟩ := hi
    simp only [List.cons.injEq, Key.str.injEq, Key.int.injEq, true_and, and_true] at hg
    obtain ⟨e, e'⟩ := hg
    cases e
    cases at_det exParamUse_wf (at_append e1 (.key e2 .here)) (at_append e3 (.key e4 .here))
    simp at h3
    subst h3
    have : (0 : Nat) = _ := Int.ofNat.inj e'
    subst this
    cases h4
    simp [NotListed, valueText] at h5
  | default => simp at hg

/-- **C121**: parameters written as a list or a text: a name that is not among them is passed over, one that is among them ends the
rule with the error of a template node, which is passed over too; other values end the rule with an error that is reported. -/
theorem C121_section_kinds {top : List (Key × Val)} (s : String) :
    (∀ xs, dlookup (Key.str "Parameters") top = some (.list xs) → (.str s ∉ xs → paramOf (.dict top) (.str s) = .ok none) ∧
      (.str s ∈ xs → ∃ m, paramOf (.dict top) (.str s) = .error (.templateAttributeError m))) ∧
    (∀ x, dlookup (Key.str "Parameters") top = some (.str x) → (¬ s.toList <:+: x.toList → paramOf (.dict top) (.str s) = .ok none) ∧
      (s.toList <:+: x.toList → ∃ m, paramOf (.dict top) (.str s) = .error (.templateAttributeError m))) ∧
    (dlookup (Key.str "Parameters") top = some .none → ∃ m, paramOf (.dict top) (.str s) = .error (.typeError m)) := by
  refine ⟨fun xs h => ⟨fun hn => ?_, fun hn => ?_⟩, fun x h => ⟨fun hn => ?_, fun hn => ?_⟩, fun h => ?_⟩
  all_goals simp only [paramOf, Val.getD, h, Option.getD_some]
  · rw [if_neg hn]
  · rw [if_pos hn]; exact ⟨_, rfl⟩
  · rw [if_neg hn]
  · rw [if_pos hn]; exact ⟨_, rfl⟩
  · exact ⟨_, rfl⟩

example : paramOf (.dict [(.str "Parameters", .list [.str "A"])]) (.str "B") = .ok none := by decide

end CfnLint
