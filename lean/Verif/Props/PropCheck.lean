import Verif.Model.PropCheck
import Verif.Spec.PropCheck
import Verif.Lemmas.Finds
import Verif.Lemmas.Leaves
import Verif.Lemmas.Split
import Verif.Props.ResProps
import Mathlib.Tactic.Common
/- Properties of the rule on the properties of resources (C78). -/
namespace CfnLint
open Spec

variable {S : RowSpecs} {t : Val} {parent : String}

theorem dlookup_find {α β : Type} [DecidableEq α] [BEq α] [LawfulBEq α] (k : α) : ∀ l : List (α × β),
    dlookup k l = (l.find? (fun e => e.1 == k)).map Prod.snd
  | [] => rfl
  | (a, b) :: l => by
    rw [dlookup, List.find?_cons]
    by_cases h : a = k
    · simp [h]
    · rw [if_neg h, dlookup_find k l, beq_false_of_ne h]

theorem typeRow_eq (S : RowSpecs) (parent name : String) : typeRow S parent name = rowNamed S parent name := by
  unfold typeRow rowNamed
  rw [dlookup_find, dlookup_find]
  cases S.types.find? (fun e => e.1 == parent ++ "." ++ name) <;> rfl

/-! ### inversion -/

theorem fault_objects {ty : String} {v : Val} {r : Path} : PropFault S t parent (.objects ty) v r ↔
    (∃ xs row, ∃ i : Nat, ∃ x s, v = .list xs ∧ rowNamed S parent ty = some row ∧ xs[i]? = some x ∧
      PropFault S t parent (.object ty row) x s ∧ r = .int i :: s) ∨
    ((∀ xs, v ≠ .list xs) ∧ ¬ IsIf v ∧ ¬ MayBeList t v ∧ r = []) ∨
    (∃ a, v = .dict [(.str "Fn::If", a)] ∧ (∀ c x y, a ≠ .list [c, x, y]) ∧ r = [.str "Fn::If"]) ∨
    (∃ c a b s, v = fnIf c a b ∧ PropFault S t parent (.objects ty) a s ∧ r = .str "Fn::If" :: .int 1 :: s) ∨
    (∃ c a b s, v = fnIf c a b ∧ PropFault S t parent (.objects ty) b s ∧ r = .str "Fn::If" :: .int 2 :: s) := by
  constructor
  · intro h
    cases h with
    | item h1 h2 h3 => exact .inl ⟨_, _, _, _, _, rfl, h1, h2, h3, rfl⟩
    | notList h1 h2 h3 => exact .inr (.inl ⟨h1, h2, h3, rfl⟩)
    | badIf h1 => exact .inr (.inr (.inl ⟨_, rfl, h1, rfl⟩))
    | left h1 => exact .inr (.inr (.inr (.inl ⟨_, _, _, _, rfl, h1, rfl⟩)))
    | right h1 => exact .inr (.inr (.inr (.inr ⟨_, _, _, _, rfl, h1, rfl⟩)))
  · rintro (⟨xs, row, i, x, s, rfl, h1, h2, h3, rfl⟩ | ⟨h1, h2, h3, rfl⟩ | ⟨a, rfl, h1, rfl⟩ | ⟨c, a, b, s, rfl, h1, rfl⟩ |
      ⟨c, a, b, s, rfl, h1, rfl⟩)
    · exact .item h1 h2 h3
    · exact .notList h1 h2 h3
    · exact .badIf h1
    · exact .left h1
    · exact .right h1

theorem fault_prim {json : Bool} {v : Val} {r : Path} : PropFault S t parent (.prim json) v r ↔
    (∃ xs, v = .list xs ∧ r = []) ∨ (v = .dict [(.str "Ref", .str "AWS::NotificationARNs")] ∧ r = []) ∨
    (json = false ∧ ∃ kvs, v = .dict kvs ∧ (∀ f a, kvs = [(.str f, a)] → f ∉ valueFunctions) ∧ r = []) ∨
    (json = false ∧ ∃ c a b s, v = fnIf c a b ∧ PropFault S t parent (.prim false) a s ∧ r = .str "Fn::If" :: .int 1 :: s) ∨
    (json = false ∧ ∃ c a b s, v = fnIf c a b ∧ PropFault S t parent (.prim false) b s ∧ r = .str "Fn::If" :: .int 2 :: s) := by
  constructor
  · intro h
    cases h with
    | isList => exact .inl ⟨_, rfl, rfl⟩
    | isArns => exact .inr (.inl ⟨rfl, rfl⟩)
    | noValueCall h1 => exact .inr (.inr (.inl ⟨rfl, _, rfl, h1, rfl⟩))
    | primLeft h1 => exact .inr (.inr (.inr (.inl ⟨rfl, _, _, _, _, rfl, h1, rfl⟩)))
    | primRight h1 => exact .inr (.inr (.inr (.inr ⟨rfl, _, _, _, _, rfl, h1, rfl⟩)))
  · rintro (⟨xs, rfl, rfl⟩ | ⟨rfl, rfl⟩ | ⟨rfl, kvs, rfl, h1, rfl⟩ | ⟨rfl, c, a, b, s, rfl, h1, rfl⟩ | ⟨rfl, c, a, b, s, rfl, h1, rfl⟩)
    · exact .isList
    · exact .isArns
    · exact .noValueCall h1
    · exact .primLeft h1
    · exact .primRight h1

theorem fault_prims {json : Bool} {v : Val} {r : Path} : PropFault S t parent (.prims json) v r ↔
    (∃ xs, ∃ i : Nat, ∃ x s, v = .list xs ∧ xs[i]? = some x ∧ PropFault S t parent (.prim json) x s ∧ r = .int i :: s) ∨
    ((∀ xs, v ≠ .list xs) ∧ (∀ kvs, v ≠ .dict kvs) ∧ r = []) ∨
    (∃ kvs, v = .dict kvs ∧ (∀ f a, kvs = [(.str f, a)] → f ∉ valueFunctions) ∧ r = []) ∨
    (∃ f a, v = .dict [(.str f, a)] ∧ f ∈ singleFunctions ∧ r = []) ∨
    (∃ x, v = .dict [(.str "Ref", x)] ∧ x ≠ .str "AWS::NoValue" ∧ ¬ RefsList t x ∧ r = []) := by
  constructor
  · intro h
    cases h with
    | primItem h1 h2 => exact .inl ⟨_, _, _, _, rfl, h1, h2, rfl⟩
    | noPrims h1 h2 => exact .inr (.inl ⟨h1, h2, rfl⟩)
    | noCall h1 => exact .inr (.inr (.inl ⟨_, rfl, h1, rfl⟩))
    | noListCall h1 => exact .inr (.inr (.inr (.inl ⟨_, _, rfl, h1, rfl⟩)))
    | noListRef h1 h2 => exact .inr (.inr (.inr (.inr ⟨_, rfl, h1, h2, rfl⟩)))
  · rintro (⟨xs, i, x, s, rfl, h1, h2, rfl⟩ | ⟨h1, h2, rfl⟩ | ⟨kvs, rfl, h1, rfl⟩ | ⟨f, a, rfl, h1, rfl⟩ | ⟨x, rfl, h1, h2, rfl⟩)
    · exact .primItem h1 h2
    · exact .noPrims h1 h2
    · exact .noCall h1
    · exact .noListCall h1
    · exact .noListRef h1 h2

theorem fault_object {name : String} {row : TypeRow} {v : Val} {r : Path} : PropFault S t parent (.object name row) v r ↔
    (row.props ≠ [] ∧ (∀ kvs, v ≠ .dict kvs) ∧ v ≠ .str "AWS::NoValue" ∧ ¬ ((∃ s, v = .str s) ∧ (parent, name) ∈ fileObjects) ∧ r = []) ∨
    (∃ kvs k u, v = .dict kvs ∧ row.props ≠ [] ∧ (k, u) ∈ kvs ∧ (∀ d, (k, d) ∉ row.props) ∧ row.additional = false ∧
      ¬ IsIf (.dict kvs) ∧ .dict kvs ≠ noValue ∧ ¬ ChosenFromMap (.dict kvs) ∧ r = [k]) ∨
    (∃ q u s, row.props ≠ [] ∧ IsIf v ∧ Leaf v q u ∧ PropFault S t parent (.object name row) u s ∧ r = q ++ s) ∨
    (∃ kvs k u d s, v = .dict kvs ∧ (k, u) ∈ kvs ∧ (k, d) ∈ row.props ∧ PropFault S t parent (expectedOf S parent d) u s ∧ r = k :: s) ∨
    (∃ ty r' xs, ∃ i : Nat, ∃ x s, v = .list xs ∧ row.props = [] ∧ row.type = some "List" ∧ row.itemType = some ty ∧
      rowNamed S parent ty = some r' ∧ xs[i]? = some x ∧ PropFault S t parent (.object ty r') x s ∧ r = .int i :: s) := by
  constructor
  · intro h
    cases h with
    | notObject h1 h2 h3 h4 => exact .inl ⟨h1, h2, h3, h4, rfl⟩
    | unknown h1 h2 h3 h4 h5 h6 h7 => exact .inr (.inl ⟨_, _, _, rfl, h1, h2, h3, h4, h5, h6, h7, rfl⟩)
    | branch h1 h2 h3 h4 => exact .inr (.inr (.inl ⟨_, _, _, h1, h2, h3, h4, rfl⟩))
    | member h1 h2 h3 => exact .inr (.inr (.inr (.inl ⟨_, _, _, _, _, rfl, h1, h2, h3, rfl⟩)))
    | element h1 h2 h3 h4 h5 h6 => exact .inr (.inr (.inr (.inr ⟨_, _, _, _, _, _, rfl, h1, h2, h3, h4, h5, h6, rfl⟩)))
  · rintro (⟨h1, h2, h3, h4, rfl⟩ | ⟨kvs, k, u, rfl, h1, h2, h3, h4, h5, h6, h7, rfl⟩ | ⟨q, u, s, h1, h2, h3, h4, rfl⟩ |
      ⟨kvs, k, u, d, s, rfl, h1, h2, h3, rfl⟩ | ⟨ty, r', xs, i, x, s, rfl, h1, h2, h3, h4, h5, h6, rfl⟩)
    · exact .notObject h1 h2 h3 h4
    · exact .unknown h1 h2 h3 h4 h5 h6 h7
    · exact .branch h1 h2 h3 h4
    · exact .member h1 h2 h3
    · exact .element h1 h2 h3 h4 h5 h6

/-! ### primitive values -/

theorem primFunctions_iff {f : String} : f ∈ primFunctions ↔ f ∈ valueFunctions := by
  have h1 : ∀ f ∈ primFunctions, f ∈ valueFunctions := by decide +kernel
  have h2 : ∀ f ∈ valueFunctions, f ∈ primFunctions := by decide +kernel
  exact ⟨h1 f, h2 f⟩

theorem fnIf_ne {c a b : Val} {k : Key} {v : Val} (hk : k ≠ .str "Fn::If") : Val.dict [(k, v)] ≠ fnIf c a b := by
  intro e
  unfold fnIf at e
  cases e
  exact hk rfl

/-- (C78) a primitive value: the findings are the faults -/
theorem C78_prim {json : Bool} : ∀ (n : Nat) (v : Val) (p : Path), sizeOf v < n →
    Finds (.ok (primCheck json v p)) p (PropFault S t parent (.prim json) v)
  | 0, _, _, h => absurd h (Nat.not_lt_zero _)
  | n + 1, .list xs, p, _ => by
    rw [primCheck]
    refine finds_here fun r => ?_
    rw [fault_prim]
    constructor
    · rintro (⟨_, e, rfl⟩ | ⟨e, rfl⟩ | ⟨-, _, e, -, rfl⟩ | ⟨-, c, a, b, s, e, -⟩ | ⟨-, c, a, b, s, e, -⟩)
      · rfl
      · rfl
      · rfl
      · cases e
      · cases e
    · rintro rfl
      exact .inl ⟨xs, rfl, rfl⟩
  | n + 1, .dict [(k, v)], p, hn => by
    rw [primCheck]
    by_cases hj : json = true
    · subst hj
      rw [if_pos rfl, List.append_nil]
      by_cases hr : k = .str "Ref" ∧ v = .str "AWS::NotificationARNs"
      · rw [if_pos hr]
        obtain ⟨rfl, rfl⟩ := hr
        refine finds_here fun r => ?_
        rw [fault_prim]
        simp
      · rw [if_neg hr]
        refine finds_none fun r => ?_
        rw [fault_prim]
        simp
        intro h1 h2
        exact absurd ⟨h1, h2⟩ hr
    · have hj : json = false := by simpa using hj
      subst hj
      rw [if_neg (show ¬ (false = true) from Bool.false_ne_true)]
      by_cases hi : k = .str "Fn::If"
      · subst hi
        rw [if_neg (by simp), if_pos rfl, List.nil_append]
        have hif : "Fn::If" ∈ valueFunctions := by decide
        by_cases hv : ∃ c a b, v = .list [c, a, b]
        · obtain ⟨c, a, b, rfl⟩ := hv
          rw [primIf]
          have ha := C78_prim (json := false) n a (p ++ [.str "Fn::If", .int 1]) (by
            simp only [Val.dict.sizeOf_spec, Val.list.sizeOf_spec, List.cons.sizeOf_spec, Prod.mk.sizeOf_spec] at hn; omega)
          have hb := C78_prim (json := false) n b (p ++ [.str "Fn::If", .int 2]) (by
            simp only [Val.dict.sizeOf_spec, Val.list.sizeOf_spec, List.cons.sizeOf_spec, Prod.mk.sizeOf_spec] at hn; omega)
          refine finds_congr (finds_append (finds_shift ha) (finds_shift hb)) fun r => ?_
          conv_rhs => rw [fault_prim]
          constructor
          · rintro (⟨s, rfl, h⟩ | ⟨s, rfl, h⟩)
            · exact .inr (.inr (.inr (.inl ⟨rfl, c, a, b, s, rfl, h, rfl⟩)))
            · exact .inr (.inr (.inr (.inr ⟨rfl, c, a, b, s, rfl, h, rfl⟩)))
          · rintro (⟨_, e, -⟩ | ⟨e, -⟩ | ⟨-, _, e, h, -⟩ | ⟨-, c', a', b', s, e, h, rfl⟩ | ⟨-, c', a', b', s, e, h, rfl⟩)
            · cases e
            · simp at e
            · cases e
              exact absurd hif (h _ _ rfl)
            · cases e
              exact .inl ⟨s, rfl, h⟩
            · cases e
              exact .inr ⟨s, rfl, h⟩
        · rw [primIf]
          swap
          · intro c a b e
            exact hv ⟨c, a, b, e⟩
          refine finds_none fun r => ?_
          rw [fault_prim]
          rintro (⟨_, e, -⟩ | ⟨e, -⟩ | ⟨-, _, e, h, -⟩ | ⟨-, c', a', b', s, e, h, rfl⟩ | ⟨-, c', a', b', s, e, h, rfl⟩)
          · cases e
          · simp at e
          · cases e
            exact absurd hif (h _ _ rfl)
          · cases e
            exact hv ⟨_, _, _, rfl⟩
          · cases e
            exact hv ⟨_, _, _, rfl⟩
      · rw [if_neg hi]
        by_cases hr : k = .str "Ref" ∧ v = .str "AWS::NotificationARNs"
        · obtain ⟨rfl, rfl⟩ := hr
          rw [if_pos ⟨rfl, rfl⟩, if_pos (by decide +kernel)]
          refine finds_here fun r => ?_
          rw [fault_prim]
          constructor
          · rintro (⟨_, e, rfl⟩ | ⟨e, rfl⟩ | ⟨-, _, e, -, rfl⟩ | ⟨-, c, a, b, s, e, -⟩ | ⟨-, c, a, b, s, e, -⟩)
            · rfl
            · rfl
            · rfl
            · exact absurd e (fnIf_ne hi)
            · exact absurd e (fnIf_ne hi)
          · rintro rfl
            exact .inr (.inl ⟨rfl, rfl⟩)
        · rw [if_neg hr, List.nil_append]
          by_cases hf : isKeyIn k primFunctions = true
          · rw [if_pos hf]
            obtain ⟨f, hm, rfl⟩ := isKeyIn_iff.1 hf
            refine finds_none fun r => ?_
            rw [fault_prim]
            rintro (⟨_, e, -⟩ | ⟨e, -⟩ | ⟨-, _, e, h, -⟩ | ⟨-, c', a', b', s, e, h, rfl⟩ | ⟨-, c', a', b', s, e, h, rfl⟩)
            · cases e
            · simp at e
              exact hr ⟨by rw [e.1], e.2⟩
            · cases e
              exact absurd (primFunctions_iff.1 hm) (h _ _ rfl)
            · exact absurd e (fnIf_ne hi)
            · exact absurd e (fnIf_ne hi)
          · rw [if_neg hf]
            refine finds_here fun r => ?_
            rw [fault_prim]
            constructor
            · rintro (⟨_, e, rfl⟩ | ⟨e, rfl⟩ | ⟨-, _, e, -, rfl⟩ | ⟨-, c, a, b, s, e, -⟩ | ⟨-, c, a, b, s, e, -⟩)
              · rfl
              · rfl
              · rfl
              · exact absurd e (fnIf_ne hi)
              · exact absurd e (fnIf_ne hi)
            · rintro rfl
              refine .inr (.inr (.inl ⟨rfl, _, rfl, ?_, rfl⟩))
              intro f a e hm
              cases e
              exact hf (isKeyIn_iff.2 ⟨f, primFunctions_iff.2 hm, rfl⟩)
  | n + 1, .dict [], p, _ => by
    rw [primCheck]
    · cases json
      · refine finds_here fun r => ?_
        rw [fault_prim]
        constructor
        · rintro (⟨_, e, rfl⟩ | ⟨e, rfl⟩ | ⟨-, _, e, -, rfl⟩ | ⟨-, c, a, b, s, e, -⟩ | ⟨-, c, a, b, s, e, -⟩) <;> first | rfl | cases e
        · rintro rfl
          exact .inr (.inr (.inl ⟨rfl, _, rfl, fun f a e => (by cases e), rfl⟩))
      · refine finds_none fun r => ?_
        rw [fault_prim]
        rintro (⟨_, e, -⟩ | ⟨e, -⟩ | ⟨e, -⟩ | ⟨e, -⟩ | ⟨e, -⟩) <;> cases e
    · intro k v e
      cases e
  | n + 1, .dict (x :: y :: l), p, _ => by
    rw [primCheck]
    · cases json
      · refine finds_here fun r => ?_
        rw [fault_prim]
        constructor
        · rintro (⟨_, e, rfl⟩ | ⟨e, rfl⟩ | ⟨-, _, e, -, rfl⟩ | ⟨-, c, a, b, s, e, -⟩ | ⟨-, c, a, b, s, e, -⟩) <;> first | rfl | cases e
        · rintro rfl
          exact .inr (.inr (.inl ⟨rfl, _, rfl, fun f a e => (by cases e), rfl⟩))
      · refine finds_none fun r => ?_
        rw [fault_prim]
        rintro (⟨_, e, -⟩ | ⟨e, -⟩ | ⟨e, -⟩ | ⟨e, -⟩ | ⟨e, -⟩) <;> cases e
    · intro k v e
      cases e
  | n + 1, .none, p, _ | n + 1, .bool _, p, _ | n + 1, .int _, p, _ | n + 1, .flt _, p, _ | n + 1, .str _, p, _ => by
    refine finds_none fun r => ?_
    rw [fault_prim]
    rintro (⟨_, e, -⟩ | ⟨e, -⟩ | ⟨-, _, e, -⟩ | ⟨-, c, a, b, s, e, -⟩ | ⟨-, c, a, b, s, e, -⟩) <;> cases e

/-! ### lists of objects -/

theorem at_key {v : Val} {k : Key} {w : Val} (h : At v [k] w) (hk : ∃ s, k = .str s) : ∃ kvs, v = .dict kvs ∧ (k, w) ∈ kvs := by
  cases v with
  | dict kvs => exact ⟨kvs, rfl, at_dict_one.1 h⟩
  | _ =>
    obtain ⟨s, rfl⟩ := hk
    cases h

theorem attTarget_of {a : Val} {name : String} (h : AttOf a name) : attTarget a = .ok (some (.str name)) := by
  rcases h with ⟨rest, rfl⟩ | ⟨s, rfl, hd, h | ⟨rest, h⟩⟩
  · rfl
  · simp only [attTarget]
    rw [h, splitOn_plain hd]
    simp
  · simp only [attTarget]
    rw [h, splitOn_append _ hd]
    simp

theorem targetType_of (hw : t.WF) {name ty : String} (h : ResHasType t name ty) : targetType t (.str name) = .ok (.str ty) := by
  obtain ⟨res, r, h1, h2, h3⟩ := h
  obtain ⟨top, rfl, h4⟩ := at_key h1 ⟨_, rfl⟩
  have hwr := at_wf h1 hw
  have hwn := at_wf (at_dict_one.2 h2) hwr
  rw [Val.WF] at hw hwr hwn
  simp only [targetType, Val.getD, dlookup_of_mem hw.1 h4, Option.getD_some, itemsOf, toKey, Option.bind_some,
    dlookup_of_mem hwr.1 h2, dlookup_of_mem hwn.1 h3]

theorem customName_iff {ty : String} : "Custom::".toList.isPrefixOf ty.toList = true ↔ CustomName ty := by
  rw [List.isPrefixOf_iff_prefix]
  constructor
  · rintro ⟨x, h⟩
    exact ⟨x, h.symm⟩
  · rintro ⟨x, h⟩
    exact ⟨x, h.symm⟩

theorem attCheck_of (hw : t.WF) {a : Val} {name ty : String} (hn : name ≠ "") (ha : AttOf a name) (ht : ResHasType t name ty) (custom : Bool)
    (p : Path) : (attCheck t custom a p = .ok [] ∧ ((custom = true ∧ ty = "AWS::CloudFormation::CustomResource") ∨ CustomName ty)) ∨
      (attCheck t custom a p = .ok [p] ∧ ¬ ((custom = true ∧ ty = "AWS::CloudFormation::CustomResource") ∨ CustomName ty)) := by
  have htr : (Val.str name).truthy = true := by
    simp [Val.truthy, hn]
  unfold attCheck
  rw [attTarget_of ha]
  simp only
  rw [if_pos htr, targetType_of hw ht]
  simp only
  have : ((custom && ty == "AWS::CloudFormation::CustomResource") || "Custom::".toList.isPrefixOf ty.toList) = true ↔
      ((custom = true ∧ ty = "AWS::CloudFormation::CustomResource") ∨ CustomName ty) := by
    rw [Bool.or_eq_true, customName_iff, Bool.and_eq_true, beq_iff_eq]
  by_cases h : ((custom && ty == "AWS::CloudFormation::CustomResource") || "Custom::".toList.isPrefixOf ty.toList) = true
  · rw [if_pos h]
    exact .inl ⟨rfl, this.1 h⟩
  · rw [if_neg h]
    exact .inr ⟨rfl, fun h' => h (this.2 h')⟩

theorem att_unique (hw : t.WF) {a : Val} {name name' ty ty' : String} (h : AttOf a name) (h' : AttOf a name') (ht : ResHasType t name ty)
    (ht' : ResHasType t name' ty') : ty = ty' := by
  have e := attTarget_of h
  rw [attTarget_of h'] at e
  cases e
  have e := targetType_of hw ht
  rw [targetType_of hw ht'] at e
  cases e
  rfl

/-- an attribute may be a list of objects only if its resource is a custom one -/
theorem mayBeList_att (hw : t.WF) {a : Val} {name ty : String} (ha : AttOf a name) (ht : ResHasType t name ty) :
    MayBeList t (.dict [(.str "Fn::GetAtt", a)]) ↔ ty = "AWS::CloudFormation::CustomResource" ∨ CustomName ty := by
  constructor
  · rintro (e | ⟨m, e⟩ | ⟨m, name', ty', e, h1, h2, h3⟩)
    · simp [noValue] at e
    · simp at e
    · cases e
      rw [att_unique hw ha h1 ht h2]
      exact h3
  · intro h
    exact .inr (.inr ⟨a, name, ty, rfl, ha, ht, h⟩)

theorem notIf_key {k : Key} {v : Val} (h : k ≠ .str "Fn::If") : ¬ IsIf (.dict [(k, v)]) := by
  rintro ⟨w, e⟩
  cases e
  exact h rfl

/-- what is no list and no condition has one fault or none -/
theorem fault_plain {ty : String} {v : Val} (h1 : ∀ xs, v ≠ .list xs) (h2 : ¬ IsIf v) {r : Path} :
    PropFault S t parent (.objects ty) v r ↔ ¬ MayBeList t v ∧ r = [] := by
  rw [fault_objects]
  constructor
  · rintro (⟨xs, row, i, x, s, rfl, -⟩ | ⟨-, -, h3, rfl⟩ | ⟨a, rfl, -⟩ | ⟨c, a, b, s, rfl, -⟩ | ⟨c, a, b, s, rfl, -⟩)
    · exact absurd rfl (h1 xs)
    · exact ⟨h3, rfl⟩
    · exact absurd ⟨_, rfl⟩ h2
    · exact absurd ⟨_, rfl⟩ h2
    · exact absurd ⟨_, rfl⟩ h2
  · rintro ⟨h3, rfl⟩
    exact .inr (.inl ⟨h1, h2, h3, rfl⟩)

theorem fault_listed {ty : String} {row : TypeRow} (hr : rowNamed S parent ty = some row) {xs : List Val} {r : Path} :
    PropFault S t parent (.objects ty) (.list xs) r ↔
      ∃ (i : Nat) (x : Val) (s : Path), xs[i]? = some x ∧ PropFault S t parent (.object ty row) x s ∧ r = .int i :: s := by
  rw [fault_objects]
  constructor
  · rintro (⟨_, row', i, x, s, e, h1, h2, h3, rfl⟩ | ⟨h, -⟩ | ⟨a, e, -⟩ | ⟨c, a, b, s, e, -⟩ | ⟨c, a, b, s, e, -⟩)
    · cases e
      rw [hr] at h1
      cases h1
      exact ⟨i, x, s, h2, h3, rfl⟩
    · exact absurd rfl (h xs)
    · cases e
    · cases e
    · cases e
  · rintro ⟨i, x, s, h2, h3, rfl⟩
    exact .inl ⟨xs, row, i, x, s, rfl, hr, h2, h3, rfl⟩

theorem fault_if {ty : String} {c a b : Val} {r : Path} : PropFault S t parent (.objects ty) (fnIf c a b) r ↔
    (∃ s, r = [.str "Fn::If", .int 1] ++ s ∧ PropFault S t parent (.objects ty) a s) ∨
    (∃ s, r = [.str "Fn::If", .int 2] ++ s ∧ PropFault S t parent (.objects ty) b s) := by
  rw [fault_objects]
  constructor
  · rintro (⟨_, row', i, x, s, e, -⟩ | ⟨-, h, -⟩ | ⟨a, e, h, -⟩ | ⟨c, a, b, s, e, h, rfl⟩ | ⟨c, a, b, s, e, h, rfl⟩)
    · cases e
    · exact absurd ⟨_, rfl⟩ h
    · cases e
      exact absurd rfl (h _ _ _)
    · cases e
      exact .inl ⟨s, rfl, h⟩
    · cases e
      exact .inr ⟨s, rfl, h⟩
  · rintro (⟨s, rfl, h⟩ | ⟨s, rfl, h⟩)
    · exact .inr (.inr (.inr (.inl ⟨c, a, b, s, rfl, h, rfl⟩)))
    · exact .inr (.inr (.inr (.inr ⟨c, a, b, s, rfl, h, rfl⟩)))

theorem fault_badIf {ty : String} {a : Val} (ha : ∀ c x y, a ≠ .list [c, x, y]) {r : Path} :
    PropFault S t parent (.objects ty) (.dict [(.str "Fn::If", a)]) r ↔ r = [.str "Fn::If"] := by
  rw [fault_objects]
  constructor
  · rintro (⟨_, row', i, x, s, e, -⟩ | ⟨-, h, -⟩ | ⟨a, e, h, rfl⟩ | ⟨c, a, b, s, e, h, rfl⟩ | ⟨c, a, b, s, e, h, rfl⟩)
    · cases e
    · exact absurd ⟨_, rfl⟩ h
    · rfl
    · cases e
      exact absurd rfl (ha _ _ _)
    · cases e
      exact absurd rfl (ha _ _ _)
  · rintro rfl
    exact .inr (.inr (.inl ⟨a, rfl, ha, rfl⟩))

/-- a branch of a condition -/
theorem objBranch_spec (hw : t.WF) {E : Expected} {V : Val} (hp : PlainProps S t parent E V) {ty : String} {row : TypeRow}
    (hr : rowNamed S parent ty = some row) {rec : Val → Path → PyM (List Path)} {z : Val} (hz : Stands S parent E V (.objects ty) z)
    (hi : ¬ IsIf z) (hm : ∀ m, z ≠ .dict [(.str "Fn::FindInMap", m)])
    (hc : ∀ m name, z = .dict [(.str "Fn::GetAtt", m)] → AttOf m name → ¬ ResHasType t name "AWS::CloudFormation::CustomResource") {p : Path}
    (hrec : ∀ xs, z = .list xs → ∀ (i : Nat) x, xs[i]? = some x →
      Finds (rec x (p ++ [.int i])) (p ++ [.int i]) (PropFault S t parent (.object ty row) x)) :
    Finds (objBranch rec t z p) p (PropFault S t parent (.objects ty) z) := by
  have other : (∀ xs, z ≠ .list xs) → ¬ MayBeList t z → Finds (.ok [p]) p (PropFault S t parent (.objects ty) z) := by
    intro h1 h2
    refine finds_here fun r => ?_
    rw [fault_plain h1 hi]
    exact ⟨fun h => h.2, fun h => ⟨h2, h⟩⟩
  have notMaybe : (∀ kvs, z = .dict kvs → ∀ kv, kvs ≠ [kv]) → ¬ MayBeList t z := by
    rintro h (rfl | ⟨m, rfl⟩ | ⟨m, name, ty, rfl, -⟩)
    · exact h _ rfl _ rfl
    · exact h _ rfl _ rfl
    · exact h _ rfl _ rfl
  cases z with
  | list xs =>
    rw [objBranch]
    exact finds_congr (finds_items (hrec xs rfl)) fun r => (fault_listed hr).symm
  | dict kvs =>
    match kvs, hz, hi, hm, hc, other, notMaybe with
    | [], _, _, _, _, other, notMaybe =>
      rw [objBranch]
      · exact other (by intro xs e; cases e) (notMaybe (by intro _ e kv e'; cases e; cases e'))
      · intro xs e; cases e
      · intro k d e; cases e
    | x :: y :: l, _, _, _, _, other, notMaybe =>
      rw [objBranch]
      · exact other (by intro xs e; cases e) (notMaybe (by intro _ e kv e'; cases e; cases e'))
      · intro xs e; cases e
      · intro k d e; cases e
    | [(k, d)], hz, hi, hm, hc, other, _ =>
      rw [objBranch]
      have hnl : ∀ xs, Val.dict [(k, d)] ≠ .list xs := by intro xs e; cases e
      by_cases hn : k = .str "Ref" ∧ d = .str "AWS::NoValue"
      · rw [if_pos hn]
        obtain ⟨rfl, rfl⟩ := hn
        refine finds_none fun r => ?_
        rw [fault_plain hnl hi]
        exact fun h => h.1 (.inl rfl)
      · rw [if_neg hn]
        by_cases hg : k = .str "Fn::GetAtt"
        · subst hg
          rw [if_pos rfl]
          obtain ⟨name, rt, h1, h2, h3⟩ := hp.atts ty d hz
          have hcr : rt ≠ "AWS::CloudFormation::CustomResource" := fun e => hc d name rfl h2 (e ▸ h3)
          rcases attCheck_of hw h1 h2 h3 false p with ⟨h4, h5⟩ | ⟨h4, h5⟩
          · rw [h4]
            refine finds_none fun r => ?_
            rw [fault_plain hnl hi, mayBeList_att hw h2 h3]
            rintro ⟨h6, -⟩
            rcases h5 with ⟨h5, -⟩ | h5
            · cases h5
            · exact h6 (.inr h5)
          · rw [h4]
            refine other hnl ?_
            rw [mayBeList_att hw h2 h3]
            rintro (h6 | h6)
            · exact hcr h6
            · exact h5 (.inr h6)
        · rw [if_neg hg, if_neg (fun e => hi ⟨d, by rw [e]⟩)]
          refine other hnl ?_
          rintro (e | ⟨m, e⟩ | ⟨m, name, ty, e, -⟩)
          · rw [noValue] at e
            cases e
            exact hn ⟨rfl, rfl⟩
          · exact hm m e
          · cases e
            exact hg rfl
  | none => exact other (by intro xs e; cases e) (notMaybe (by intro _ e; cases e))
  | bool b => exact other (by intro xs e; cases e) (notMaybe (by intro _ e; cases e))
  | int i => exact other (by intro xs e; cases e) (notMaybe (by intro _ e; cases e))
  | flt f => exact other (by intro xs e; cases e) (notMaybe (by intro _ e; cases e))
  | str s => exact other (by intro xs e; cases e) (notMaybe (by intro _ e; cases e))

/-- a property that is a list of objects -/
theorem objectsCheck_spec (hw : t.WF) {E : Expected} {V : Val} (hp : PlainProps S t parent E V) {ty : String} {row : TypeRow}
    (hr : rowNamed S parent ty = some row) {rec : Val → Path → PyM (List Path)} {v : Val} (hz : Stands S parent E V (.objects ty) v) {p : Path}
    (hrec : ∀ xs x, Stands S parent E V (.objects ty) (.list xs) → x ∈ xs → sizeOf x < sizeOf v → ∀ q,
      Finds (rec x q) q (PropFault S t parent (.object ty row) x)) :
    Finds (objectsCheck rec t v p) p (PropFault S t parent (.objects ty) v) := by
  have other : (∀ xs, v ≠ .list xs) → ¬ IsIf v → ¬ MayBeList t v → Finds (.ok [p]) p (PropFault S t parent (.objects ty) v) := by
    intro h1 hi h2
    refine finds_here fun r => ?_
    rw [fault_plain h1 hi]
    exact ⟨fun h => h.2, fun h => ⟨h2, h⟩⟩
  have notMaybe : (∀ kvs, v = .dict kvs → ∀ kv, kvs ≠ [kv]) → ¬ IsIf v ∧ ¬ MayBeList t v := by
    intro h
    constructor
    · rintro ⟨w, rfl⟩
      exact h _ rfl _ rfl
    · rintro (rfl | ⟨m, rfl⟩ | ⟨m, name, ty, rfl, -⟩)
      · exact h _ rfl _ rfl
      · exact h _ rfl _ rfl
      · exact h _ rfl _ rfl
  cases v with
  | list xs =>
    refine finds_congr (finds_items fun i x hx => ?_) fun r => (fault_listed hr).symm
    have hm := List.mem_of_getElem? hx
    exact hrec xs x hz hm (by have := sizeOf_item hm; omega) _
  | dict kvs =>
    match kvs, hz, hrec, other, notMaybe with
    | [], _, _, other, notMaybe =>
      have h := notMaybe (by intro _ e kv e'; cases e; cases e')
      exact other (by intro xs e; cases e) h.1 h.2
    | x :: y :: l, _, _, other, notMaybe =>
      have h := notMaybe (by intro _ e kv e'; cases e; cases e')
      exact other (by intro xs e; cases e) h.1 h.2
    | [(k, d)], hz, hrec, other, _ =>
      have hnl : ∀ xs, Val.dict [(k, d)] ≠ .list xs := by intro xs e; cases e
      simp only [objectsCheck]
      by_cases hi : k = .str "Fn::If"
      · subst hi
        rw [if_pos rfl]
        obtain ⟨xs, rfl, hxs⟩ := hp.conds ty d hz
        by_cases h3 : ∃ c x y, xs = [c, x, y]
        · obtain ⟨c, x, y, rfl⟩ := h3
          rw [objCond]
          have hbr := hxs c x y rfl
          have hz' : Stands S parent E V (.objects ty) (fnIf c x y) := hz
          have hsx : sizeOf x < sizeOf (Val.dict [(Key.str "Fn::If", Val.list [c, x, y])]) := by
            simp only [Val.dict.sizeOf_spec, Val.list.sizeOf_spec, List.cons.sizeOf_spec, Prod.mk.sizeOf_spec]; omega
          have hsy : sizeOf y < sizeOf (Val.dict [(Key.str "Fn::If", Val.list [c, x, y])]) := by
            simp only [Val.dict.sizeOf_spec, Val.list.sizeOf_spec, List.cons.sizeOf_spec, Prod.mk.sizeOf_spec]; omega
          have hx := objBranch_spec (p := p ++ [.str "Fn::If"] ++ [.int 1]) (rec := rec) hw hp hr (.left hz') (hbr x (.inl rfl)).1
            (hbr x (.inl rfl)).2.1 (hbr x (.inl rfl)).2.2 (fun ys e i u hu => by
              subst e
              have hm := List.mem_of_getElem? hu
              exact hrec ys u (.left hz') hm (by have := sizeOf_item hm; omega) _)
          have hy := objBranch_spec (p := p ++ [.str "Fn::If"] ++ [.int 2]) (rec := rec) hw hp hr (.right hz') (hbr y (.inr rfl)).1
            (hbr y (.inr rfl)).2.1 (hbr y (.inr rfl)).2.2 (fun ys e i u hu => by
              subst e
              have hm := List.mem_of_getElem? hu
              exact hrec ys u (.right hz') hm (by have := sizeOf_item hm; omega) _)
          rw [List.append_assoc] at hx hy
          have := finds_append (finds_shift hx) (finds_shift hy)
          rw [List.append_assoc, List.append_assoc]
          exact finds_congr this fun r => fault_if.symm
        · rw [objCond]
          · exact finds_one fun r => fault_badIf (fun c x y e => h3 ⟨c, x, y, by cases e; rfl⟩)
          · intro c x y e
            exact h3 ⟨c, x, y, e⟩
      · rw [if_neg hi]
        by_cases hm : k = .str "Fn::FindInMap"
        · subst hm
          rw [if_pos rfl]
          refine finds_none fun r => ?_
          rw [fault_plain hnl (notIf_key hi)]
          exact fun h => h.1 (.inr (.inl ⟨d, rfl⟩))
        · rw [if_neg hm]
          by_cases hg : k = .str "Fn::GetAtt"
          · subst hg
            rw [if_pos rfl]
            obtain ⟨name, rt, h1, h2, h3⟩ := hp.atts ty d hz
            rcases attCheck_of hw h1 h2 h3 true p with ⟨h4, h5⟩ | ⟨h4, h5⟩
            · rw [h4]
              refine finds_none fun r => ?_
              rw [fault_plain hnl (notIf_key hi), mayBeList_att hw h2 h3]
              rintro ⟨h6, -⟩
              exact h6 (h5.imp And.right id)
            · rw [h4]
              refine other hnl (notIf_key hi) ?_
              rw [mayBeList_att hw h2 h3]
              exact fun h6 => h5 (h6.imp (fun h => ⟨rfl, h⟩) id)
          · rw [if_neg hg]
            by_cases hn : k = .str "Ref" ∧ d = .str "AWS::NoValue"
            · rw [if_pos hn]
              obtain ⟨rfl, rfl⟩ := hn
              refine finds_none fun r => ?_
              rw [fault_plain hnl (notIf_key hi)]
              exact fun h => h.1 (.inl rfl)
            · rw [if_neg hn]
              refine other hnl (notIf_key hi) ?_
              rintro (e | ⟨m, e⟩ | ⟨m, name, ty, e, -⟩)
              · rw [noValue] at e
                cases e
                exact hn ⟨rfl, rfl⟩
              · cases e
                exact hm rfl
              · cases e
                exact hg rfl
  | none => exact other (by intro xs e; cases e) (notMaybe (by intro _ e; cases e)).1 (notMaybe (by intro _ e; cases e)).2
  | bool b => exact other (by intro xs e; cases e) (notMaybe (by intro _ e; cases e)).1 (notMaybe (by intro _ e; cases e)).2
  | int i => exact other (by intro xs e; cases e) (notMaybe (by intro _ e; cases e)).1 (notMaybe (by intro _ e; cases e)).2
  | flt f => exact other (by intro xs e; cases e) (notMaybe (by intro _ e; cases e)).1 (notMaybe (by intro _ e; cases e)).2
  | str s => exact other (by intro xs e; cases e) (notMaybe (by intro _ e; cases e)).1 (notMaybe (by intro _ e; cases e)).2

/-! ### lists of primitive values -/

theorem listTypeName_iff {ty : String} : listType ty = true ↔ ListTypeName ty := by
  have h : ∀ l : List Char, l <:+: ty.toList ↔ ∃ a b, ty.toList = a ++ (l ++ b) := by
    intro l
    constructor
    · rintro ⟨a, b, h⟩
      exact ⟨a, b, by rw [← h, List.append_assoc]⟩
    · rintro ⟨a, b, h⟩
      exact ⟨a, b, by rw [h, List.append_assoc]⟩
  unfold listType ListTypeName
  rw [Bool.or_eq_true, Bool.or_eq_true, decide_eq_true_iff, decide_eq_true_iff, beq_iff_eq, h, h]
  exact or_comm

theorem primRef_of (hw : t.WF) (ht : ∃ top, t = .dict top) {name : String}
    (hp : ∀ ps prm, At t [.str "Parameters"] (.dict ps) → (.str name, prm) ∈ ps → ∃ ty, ty ≠ "" ∧ ParamType t name ty) (p : Path) :
    (primRef t (.str name) p = .ok [] ∧ RefsList t (.str name)) ∨ (primRef t (.str name) p = .ok [p] ∧ ¬ RefsList t (.str name)) := by
  obtain ⟨top, rfl⟩ := ht
  unfold primRef
  by_cases hn : Val.str name = .str "AWS::NotificationARNs"
  · rw [if_pos hn]
    exact .inl ⟨rfl, .inl hn⟩
  · rw [if_neg hn]
    have hwt := hw
    rw [Val.WF] at hwt
    have none : (∀ ty, ¬ ParamType (.dict top) name ty) → ¬ RefsList (.dict top) (.str name) := by
      rintro h (e | ⟨name', ty, e, h', -⟩)
      · exact hn e
      · cases e
        exact h ty h'
    simp only [Val.getD]
    cases hl : dlookup (Key.str "Parameters") top with
    | none =>
      simp only [Option.getD_none, toKey, Option.bind_some, dlookup, true_and]
      refine .inr (none ?_)
      rintro ty ⟨ps, r, h1, h2, h3⟩
      rw [dlookup_of_mem hwt.1 (at_dict_one.1 h1)] at hl
      cases hl
    | some ps =>
      have hat : At (.dict top) [.str "Parameters"] ps := at_dict_one.2 (dlookup_mem hl)
      have hwp := at_wf hat hw
      simp only [Option.getD_some]
      cases ps with
      | dict ps =>
        simp only [toKey, Option.bind_some]
        have hwp' := hwp
        rw [Val.WF] at hwp'
        cases hl' : dlookup (Key.str name) ps with
        | none =>
          refine .inr ⟨rfl, none ?_⟩
          rintro ty ⟨ps', r, h1, h2, h3⟩
          cases at_det hw hat h1
          rw [dlookup_of_mem hwp'.1 h2] at hl'
          cases hl'
        | some prm =>
          obtain ⟨ty, h0, ps', r, h1, h2, h3⟩ := hp ps prm hat (dlookup_mem hl')
          cases at_det hw hat h1
          rw [dlookup_of_mem hwp'.1 h2] at hl'
          cases hl'
          have hwr := at_wf (at_dict_one.2 h2) hwp
          rw [Val.WF] at hwr
          have htr : (Val.str ty).truthy = true := by simp [Val.truthy, h0]
          simp only [Val.subscript, dlookup_of_mem hwr.1 h3, htr, if_true]
          by_cases hl : listType ty = true
          · rw [if_pos hl]
            exact .inl ⟨rfl, .inr ⟨name, ty, rfl, ⟨ps, r, hat, h2, h3⟩, listTypeName_iff.1 hl⟩⟩
          · rw [if_neg hl]
            refine .inr ⟨rfl, ?_⟩
            rintro (e | ⟨name', ty', e, ⟨ps', r', h1', h2', h3'⟩, h4⟩)
            · exact hn e
            · cases e
              cases at_det hw hat h1'
              have e := dlookup_of_mem hwp'.1 h2
              rw [dlookup_of_mem hwp'.1 h2'] at e
              cases e
              have e := dlookup_of_mem hwr.1 h3
              rw [dlookup_of_mem hwr.1 h3'] at e
              cases e
              exact hl (listTypeName_iff.2 h4)
      | _ =>
        refine .inr ⟨rfl, none ?_⟩
        rintro ty ⟨ps', r, h1, h2, h3⟩
        cases at_det hw hat h1

theorem fault_call {json : Bool} {f : String} {a : Val} (hf : f ∈ valueFunctions) {r : Path} :
    PropFault S t parent (.prims json) (.dict [(.str f, a)]) r ↔
      (f ∈ singleFunctions ∨ (f = "Ref" ∧ a ≠ .str "AWS::NoValue" ∧ ¬ RefsList t a)) ∧ r = [] := by
  rw [fault_prims]
  constructor
  · rintro (⟨_, i, x, s, e, -⟩ | ⟨-, h, -⟩ | ⟨kvs, e, h, -⟩ | ⟨f', a', e, h, rfl⟩ | ⟨x, e, h1, h2, rfl⟩)
    · cases e
    · exact absurd rfl (h _)
    · cases e
      exact absurd hf (h _ _ rfl)
    · cases e
      exact ⟨.inl h, rfl⟩
    · simp only [Val.dict.injEq, List.cons.injEq, Prod.mk.injEq, Key.str.injEq, and_true] at e
      rw [← e.2] at h1 h2
      exact ⟨.inr ⟨e.1, h1, h2⟩, rfl⟩
  · rintro ⟨h | ⟨rfl, h1, h2⟩, rfl⟩
    · exact .inr (.inr (.inr (.inl ⟨f, a, rfl, h, rfl⟩)))
    · exact .inr (.inr (.inr (.inr ⟨a, rfl, h1, h2, rfl⟩)))

theorem singularFunctions_iff {f : String} : f ∈ singularFunctions ↔ f ∈ singleFunctions := by
  have h1 : ∀ f ∈ singularFunctions, f ∈ singleFunctions := by decide +kernel
  have h2 : ∀ f ∈ singleFunctions, f ∈ singularFunctions := by decide +kernel
  exact ⟨h1 f, h2 f⟩

theorem flatMap_collect {xs : List (Val × Nat)} {f : Val × Nat → List Path} :
    (.ok (xs.flatMap f) : PyM (List Path)) = collectM (fun xi => .ok (f xi)) xs := by
  induction xs with
  | nil => rfl
  | cons x xs ih => rw [collectM, ← ih]; rfl

/-- a property that is a list of primitive values -/
theorem primsCheck_spec (hw : t.WF) (ht : ∃ top, t = .dict top) {E : Expected} {V : Val} (hp : PlainProps S t parent E V) {json : Bool} {v : Val}
    (hz : Stands S parent E V (.prims json) v) (p : Path) :
    Finds (primsCheck t json v p) p (PropFault S t parent (.prims json) v) := by
  cases v with
  | list xs =>
    rw [primsCheck, flatMap_collect]
    refine finds_congr (finds_items (rec := fun x q => .ok (primCheck json x q)) fun i x hx =>
      C78_prim (S := S) (t := t) (parent := parent) (sizeOf x + 1) x _ (Nat.lt_succ_self _))
      fun r => ?_
    rw [fault_prims]
    constructor
    · rintro ⟨i, x, s, h1, h2, rfl⟩
      exact .inl ⟨xs, i, x, s, rfl, h1, h2, rfl⟩
    · rintro (⟨_, i, x, s, e, h1, h2, rfl⟩ | ⟨h, -⟩ | ⟨kvs, e, -⟩ | ⟨f', a', e, -⟩ | ⟨x, e, -⟩)
      · cases e
        exact ⟨i, x, s, h1, h2, rfl⟩
      · exact absurd rfl (h _)
      · cases e
      · cases e
      · cases e
  | dict kvs =>
    obtain ⟨f, a, rfl, hf⟩ := hp.calls json kvs hz
    rw [primsCheck]
    by_cases hr : f = "Ref"
    · subst hr
      obtain ⟨name, rfl, h1, h2⟩ := hp.refs json a hz
      rw [show dlookup (Key.str "Ref") [(Key.str "Ref", Val.str name)] = some (.str name) by simp [dlookup]]
      have hs : "Ref" ∉ singleFunctions := by decide +kernel
      rcases primRef_of hw ht h2 p with ⟨h3, h4⟩ | ⟨h3, h4⟩
      · simp only [h3]
        refine finds_none fun r => ?_
        rw [fault_call hf]
        rintro ⟨h | ⟨-, -, h⟩, -⟩
        · exact hs h
        · exact h h4
      · simp only [h3]
        refine finds_here fun r => ?_
        rw [fault_call hf]
        exact ⟨fun h => h.2, fun h => ⟨.inr ⟨rfl, fun e => h1 (by cases e; rfl), h4⟩, h⟩⟩
    · rw [show dlookup (Key.str "Ref") [(Key.str f, a)] = none by simp [dlookup, hr]]
      simp only
      by_cases hs : isKeyIn (.str f) singularFunctions = true
      · rw [if_pos hs]
        obtain ⟨f', hm, e⟩ := isKeyIn_iff.1 hs
        cases e
        refine finds_here fun r => ?_
        rw [fault_call hf]
        exact ⟨fun h => h.2, fun h => ⟨.inl (singularFunctions_iff.1 hm), h⟩⟩
      · rw [if_neg hs]
        refine finds_none fun r => ?_
        rw [fault_call hf]
        rintro ⟨h | ⟨h, -⟩, -⟩
        · exact hs (isKeyIn_iff.2 ⟨f, singularFunctions_iff.2 h, rfl⟩)
        · exact hr h
  | none | bool _ | int _ | flt _ | str _ =>
    refine finds_here fun r => ?_
    rw [fault_prims]
    constructor
    · rintro (⟨_, i, x, s, e, -⟩ | ⟨-, -, rfl⟩ | ⟨kvs, e, -⟩ | ⟨f', a', e, -⟩ | ⟨x, e, -⟩)
      · cases e
      · rfl
      · cases e
      · cases e
      · cases e
    · rintro rfl
      exact .inr (.inl ⟨fun xs e => (by cases e), fun xs e => (by cases e), rfl⟩)

/-! ### objects -/

theorem leaf_lt {v u : Val} {q : Path} (hi : IsIf v) (h : Leaf v q u) : sizeOf u < sizeOf v := by
  cases h with
  | here h1 => exact absurd hi h1
  | left h => have := leaf_size h; unfold fnIf; simp; omega
  | right h => have := leaf_size h; unfold fnIf; simp; omega

theorem templated_iff {name : String} : name ∈ templatedExceptions parent ↔ (parent, name) ∈ fileObjects := by
  unfold templatedExceptions
  split
  all_goals simp_all [fileObjects]

theorem returnsObject_iff {kvs : List (Key × Val)} : returnsObject kvs = true ↔ ChosenFromMap (.dict kvs) := by
  unfold returnsObject ChosenFromMap
  split
  · simp
  · rename_i h
    constructor
    · intro e; cases e
    · rintro ⟨i, m, e⟩
      simp only [Val.dict.injEq] at e
      exact (h _ _ e).elim

theorem namesNoValue_of {kvs : List (Key × Val)} (h : ∀ k u, kvs = [(k, u)] →
    ∃ s, k = .str s ∧ (u = .str "AWS::NoValue" → s = "Ref" ∨ ∀ a b, "Ref".toList ≠ a ++ (s.toList ++ b))) :
    (namesNoValue kvs = .ok true ∧ .dict kvs = noValue) ∨ (namesNoValue kvs = .ok false ∧ .dict kvs ≠ noValue) := by
  match kvs, h with
  | [], _ => exact .inr ⟨rfl, by simp [noValue]⟩
  | x :: y :: l, _ => exact .inr ⟨by simp [namesNoValue], by simp [noValue]⟩
  | [(k, u)], h =>
    obtain ⟨s, rfl, hs⟩ := h k u rfl
    rw [namesNoValue]
    by_cases hu : u = .str "AWS::NoValue"
    · rcases hs hu with rfl | h
      · subst hu
        exact .inl ⟨by decide +kernel, rfl⟩
      · refine .inr ⟨?_, ?_⟩
        · have : ¬ s.toList <:+: "Ref".toList := by
            rintro ⟨a, b, e⟩
            exact h a b (by rw [← e, List.append_assoc])
          rw [decide_eq_false this]
          rfl
        · intro e
          simp only [noValue, Val.dict.injEq, List.cons.injEq, Prod.mk.injEq, Key.str.injEq, and_true] at e
          exact h [] [] (by rw [e.1]; simp)
    · refine .inr ⟨by simp [hu], ?_⟩
      intro e
      simp only [noValue, Val.dict.injEq, List.cons.injEq, Prod.mk.injEq, Key.str.injEq, and_true] at e
      exact hu e.2

/-- what is wrong because of one key of an object -/
def KeyFault (S : RowSpecs) (t : Val) (parent name : String) (row : TypeRow) (kvs : List (Key × Val)) (kv : Key × Val) (r : Path) : Prop :=
  (∃ d s, (kv.1, d) ∈ row.props ∧ PropFault S t parent (expectedOf S parent d) kv.2 s ∧ r = kv.1 :: s) ∨
  ((∀ d, (kv.1, d) ∉ row.props) ∧
    ((row.additional = false ∧ ¬ IsIf (.dict kvs) ∧ .dict kvs ≠ noValue ∧ ¬ ChosenFromMap (.dict kvs) ∧ r = [kv.1]) ∨
    (IsIf (.dict kvs) ∧ ∃ q u s, Leaf (.dict kvs) q u ∧ PropFault S t parent (.object name row) u s ∧ r = q ++ s)))

theorem fault_keys {name : String} {row : TypeRow} {kvs : List (Key × Val)} (hg : GoodRow S parent row) (hne : row.props ≠ []) {r : Path} :
    PropFault S t parent (.object name row) (.dict kvs) r ↔ ∃ kv ∈ kvs, KeyFault S t parent name row kvs kv r := by
  rw [fault_object]
  constructor
  · rintro (⟨-, h, -⟩ | ⟨_, k, u, e, h1, h2, h3, h4, h5, h6, h7, rfl⟩ | ⟨q, u, s, h1, h2, h3, h4, rfl⟩ | ⟨_, k, u, d, s, e, h1, h2, h3, rfl⟩ |
      ⟨ty, r', xs, i, x, s, e, -⟩)
    · exact absurd rfl (h _)
    · cases e
      exact ⟨(k, u), h2, .inr ⟨h3, .inl ⟨h4, h5, h6, h7, rfl⟩⟩⟩
    · have h2' := h2
      obtain ⟨w, e⟩ := h2
      cases e
      exact ⟨_, List.mem_cons_self, .inr ⟨hg.noIf, .inr ⟨h2', q, u, s, h3, h4, rfl⟩⟩⟩
    · cases e
      exact ⟨(k, u), h1, .inl ⟨d, s, h2, h3, rfl⟩⟩
    · cases e
  · rintro ⟨⟨k, u⟩, hm, ⟨d, s, h1, h2, rfl⟩ | ⟨h1, ⟨h2, h3, h4, h5, rfl⟩ | ⟨h2, q, u, s, h3, h4, rfl⟩⟩⟩
    · exact .inr (.inr (.inr (.inl ⟨kvs, k, u, d, s, rfl, hm, h1, h2, rfl⟩)))
    · exact .inr (.inl ⟨kvs, k, u, rfl, hne, hm, h1, h2, h3, h4, h5, rfl⟩)
    · exact .inr (.inr (.inl ⟨q, u, s, hne, h2, h3, h4, rfl⟩))

theorem keyFault_unknown {name : String} {row : TypeRow} {kvs : List (Key × Val)} {kv : Key × Val} (h : ∀ d, (kv.1, d) ∉ row.props) {r : Path} :
    KeyFault S t parent name row kvs kv r ↔
    ((row.additional = false ∧ ¬ IsIf (.dict kvs) ∧ .dict kvs ≠ noValue ∧ ¬ ChosenFromMap (.dict kvs) ∧ r = [kv.1]) ∨
    (IsIf (.dict kvs) ∧ ∃ q u s, Leaf (.dict kvs) q u ∧ PropFault S t parent (.object name row) u s ∧ r = q ++ s)) := by
  constructor
  · rintro (⟨d, s, h1, -⟩ | ⟨-, h'⟩)
    · exact absurd h1 (h d)
    · exact h'
  · intro h'
    exact .inr ⟨h, h'⟩

theorem keyFault_known {name : String} {row : TypeRow} (hg : GoodRow S parent row) {kvs : List (Key × Val)} {kv : Key × Val} {d : PropRow}
    (h : (kv.1, d) ∈ row.props) {r : Path} :
    KeyFault S t parent name row kvs kv r ↔ ∃ s, r = [kv.1] ++ s ∧ PropFault S t parent (expectedOf S parent d) kv.2 s := by
  constructor
  · rintro (⟨d', s, h1, h2, rfl⟩ | ⟨h', -⟩)
    · have e := dlookup_of_mem hg.nodup h
      rw [dlookup_of_mem hg.nodup h1] at e
      cases e
      exact ⟨s, rfl, h2⟩
    · exact absurd h (h' d)
  · rintro ⟨s, rfl, h'⟩
    exact .inl ⟨d, s, h, h', rfl⟩

theorem unknownKey_spec {E : Expected} {V : Val} (hp : PlainProps S t parent E V) {name : String} {row : TypeRow} {kvs : List (Key × Val)}
    (hz : Stands S parent E V (.object name row) (.dict kvs)) {kv : Key × Val} (hm : kv ∈ kvs) (hu : ∀ d, (kv.1, d) ∉ row.props)
    {rec : Val → Path → PyM (List Path)} {p : Path}
    (hrec : ∀ u q, Stands S parent E V (.object name row) u → sizeOf u < sizeOf (Val.dict kvs) →
      Finds (rec u q) q (PropFault S t parent (.object name row) u)) :
    Finds (unknownKey rec row.additional kvs kv p) p (KeyFault S t parent name row kvs kv) := by
  unfold unknownKey
  by_cases hi : kv.1 = .str "Fn::If" ∧ kvs.length = 1
  · rw [if_pos hi]
    obtain ⟨x, rfl⟩ := List.length_eq_one_iff.1 hi.2
    rw [List.mem_singleton] at hm
    subst hm
    obtain ⟨k, w⟩ := kv
    obtain ⟨rfl, -⟩ := hi
    have hif : IsIf (.dict [(.str "Fn::If", w)]) := ⟨w, rfl⟩
    have key : ∀ c ∈ condValues w (p ++ [.str "Fn::If"]), ∃ q, c.1 = p ++ q ∧ Leaf (.dict [(.str "Fn::If", w)]) q c.2 :=
      fun c hc => mem_condValues_leaf.1 hc
    refine finds_congr (finds_collect (F := fun c r => ∃ q s, c.1 = p ++ q ∧ Leaf (.dict [(.str "Fn::If", w)]) q c.2 ∧
      PropFault S t parent (.object name row) c.2 s ∧ r = q ++ s) ?_) ?_
    · rintro ⟨c, u⟩ hc
      obtain ⟨q, e, hl⟩ := key _ hc
      simp only at e hl
      obtain ⟨m, rfl⟩ := hp.branches name row _ q u hz hif hl
      subst e
      refine finds_congr (finds_shift (hrec (.dict m) (p ++ q) (.branch hz hl) (leaf_lt hif hl))) fun r => ?_
      constructor
      · rintro ⟨s, rfl, h⟩
        exact ⟨q, s, rfl, hl, h, rfl⟩
      · rintro ⟨q', s, e, hl', h, rfl⟩
        rw [List.append_cancel_left e]
        exact ⟨s, rfl, h⟩
    · intro r
      rw [keyFault_unknown hu]
      constructor
      · rintro ⟨⟨c, u⟩, hc, q, s, -, hl, h, rfl⟩
        exact .inr ⟨hif, q, u, s, hl, h, rfl⟩
      · rintro (⟨-, h, -⟩ | ⟨-, q, u, s, hl, h, rfl⟩)
        · exact absurd hif h
        · exact ⟨(p ++ q, u), mem_condValues_leaf.2 ⟨q, rfl, hl⟩, q, s, rfl, hl, h, rfl⟩
  · rw [if_neg hi]
    have hni : ¬ IsIf (.dict kvs) := by
      rintro ⟨w, e⟩
      cases e
      rw [List.mem_singleton] at hm
      subst hm
      exact hi ⟨rfl, rfl⟩
    by_cases hr : returnsObject kvs = true
    · rw [if_pos hr]
      refine finds_none fun r => ?_
      rw [keyFault_unknown hu]
      rintro (⟨-, -, -, h, -⟩ | ⟨h, -⟩)
      · exact h (returnsObject_iff.1 hr)
      · exact hni h
    · rw [if_neg hr]
      rcases namesNoValue_of (kvs := kvs) (fun k u e => hp.keys name row k u (e ▸ hz)) with ⟨h1, h2⟩ | ⟨h1, h2⟩
      · rw [h1]
        refine finds_none fun r => ?_
        rw [keyFault_unknown hu]
        rintro (⟨-, -, h, -⟩ | ⟨h, -⟩)
        · exact h h2
        · exact hni h
      · rw [h1]
        simp only [Bool.false_or]
        cases ha : row.additional with
        | true =>
          refine finds_none fun r => ?_
          rw [keyFault_unknown hu, ha]
          rintro (⟨h, -⟩ | ⟨h, -⟩)
          · cases h
          · exact hni h
        | false =>
          refine finds_one fun r => ?_
          rw [keyFault_unknown hu, ha]
          constructor
          · rintro (⟨-, -, -, -, h⟩ | ⟨h, -⟩)
            · exact h
            · exact absurd h hni
          · intro h
            exact .inl ⟨rfl, hni, h2, fun h' => hr (returnsObject_iff.2 h'), h⟩

theorem fault_any {v : Val} {r : Path} : ¬ PropFault S t parent .any v r := by
  intro h
  cases h

theorem dlookup_noKey {β : Type} {k : Key} {d : List (Key × β)} (h : dlookup k d = none) : ∀ x, (k, x) ∉ d := by
  intro x hm
  exact dlookup_none_iff.1 h (List.mem_map.2 ⟨_, hm, rfl⟩)

/-- (C78) the findings of the rule are exactly the faults of the value -/
theorem C78_exact_partial (hw : t.WF) (ht : ∃ top, t = .dict top) {E : Expected} {V : Val} (hp : PlainProps S t parent E V) :
    ∀ (n : Nat) (name : String) (row : TypeRow) (v : Val) (p : Path), Stands S parent E V (.object name row) v → sizeOf v < n →
      Finds (rowCheck S t parent n name row v p) p (PropFault S t parent (.object name row) v) := by
  intro n
  induction n with
  | zero => intro name row v p _ h; exact absurd h (Nat.not_lt_zero _)
  | succ n ih =>
    intro name row v p hz hn
    have hg := hp.rows name row v hz
    rw [rowCheck.eq_def]
    simp only
    by_cases he : row.props = []
    · rw [if_pos (by rw [he]; rfl)]
      have nothing : (∀ xs, v = .list xs → row.type ≠ some "List") → Finds (.ok []) p (PropFault S t parent (.object name row) v) := by
        intro h
        refine finds_none fun r => ?_
        rw [fault_object]
        rintro (⟨h1, -⟩ | ⟨_, k, u, -, h1, -⟩ | ⟨q, u, s, h1, -⟩ | ⟨_, k, u, d, s, -, -, h2, -⟩ | ⟨ty, r', xs, i, x, s, e, h1, h2, -⟩)
        · exact h1 he
        · exact h1 he
        · exact h1 he
        · rw [he] at h2
          cases h2
        · exact h xs e h2
      cases v with
      | list xs =>
        by_cases hl : row.type = some "List"
        · simp only [if_pos hl]
          obtain ⟨ty, r, h1, h2⟩ := hg.elements he hl
          simp only [h1, Option.getD_some, typeRow_eq, h2]
          refine finds_congr (finds_items (rec := fun x q => rowCheck S t parent n ty r x q) (G := PropFault S t parent (.object ty r)) fun i x hx => ?_) fun q => ?_
          · have hm := List.mem_of_getElem? hx
            exact ih ty r x _ (.element hz he h1 h2 hm) (by have := sizeOf_item hm; omega)
          · rw [fault_object]
            constructor
            · rintro ⟨i, x, s, h3, h4, rfl⟩
              exact .inr (.inr (.inr (.inr ⟨ty, r, xs, i, x, s, rfl, he, hl, h1, h2, h3, h4, rfl⟩)))
            · rintro (⟨h1, -⟩ | ⟨_, k, u, -, h1, -⟩ | ⟨q, u, s, h1, -⟩ | ⟨_, k, u, d, s, -, -, h2, -⟩ |
                ⟨ty', r', xs', i, x, s, e, -, -, h3, h4, h5, h6, rfl⟩)
              · exact absurd he h1
              · exact absurd he h1
              · exact absurd he h1
              · rw [he] at h2
                cases h2
              · cases e
                rw [h1] at h3
                cases h3
                rw [h2] at h4
                cases h4
                exact ⟨i, x, s, h5, h6, rfl⟩
        · simp only [if_neg hl]
          exact nothing fun _ _ => hl
      | _ => exact nothing fun _ e => (by cases e)
    · rw [if_neg (by simpa using he)]
      have scalar : (∀ kvs, v ≠ .dict kvs) →
          Finds (.ok (if v = .str "AWS::NoValue" ∨ (v.isStr = true ∧ name ∈ templatedExceptions parent) then [] else [p])) p
            (PropFault S t parent (.object name row) v) := by
        intro hd
        have hstr : v.isStr = true ↔ ∃ s, v = .str s := by
          cases v <;> simp [Val.isStr]
        have hf : ∀ r, PropFault S t parent (.object name row) v r ↔
            ¬ (v = .str "AWS::NoValue" ∨ (v.isStr = true ∧ name ∈ templatedExceptions parent)) ∧ r = [] := by
          intro r
          rw [fault_object, hstr, templated_iff]
          constructor
          · rintro (⟨-, -, h3, h4, rfl⟩ | ⟨_, k, u, e, -⟩ | ⟨q, u, s, -, ⟨w, e⟩, -⟩ | ⟨_, k, u, d, s, e, -⟩ | ⟨ty, r', xs, i, x, s, e, h1, -⟩)
            · exact ⟨fun h => h.elim h3 h4, rfl⟩
            · exact absurd e (hd _)
            · exact absurd e (hd _)
            · exact absurd e (hd _)
            · exact absurd h1 he
          · rintro ⟨h, rfl⟩
            exact .inl ⟨he, hd, fun h' => h (.inl h'), fun h' => h (.inr h'), rfl⟩
        by_cases h : v = .str "AWS::NoValue" ∨ (v.isStr = true ∧ name ∈ templatedExceptions parent)
        · rw [if_pos h]
          exact finds_none fun r h' => ((hf r).1 h').1 h
        · rw [if_neg h]
          exact finds_here fun r => ⟨fun h' => ((hf r).1 h').2, fun h' => (hf r).2 ⟨h, h'⟩⟩
      cases v with
      | dict kvs =>
        refine finds_congr (finds_collect (F := KeyFault S t parent name row kvs) ?_) fun r => (fault_keys hg he).symm
        rintro ⟨k, u⟩ hm
        simp only
        have hsz := sizeOf_key hm
        cases hl : dlookup k row.props with
        | none =>
          exact unknownKey_spec hp hz hm (dlookup_noKey hl) fun u q hu hs => ih name row u q hu (by omega)
        | some d =>
          have hd := dlookup_mem hl
          refine finds_congr ?_ fun r => (keyFault_known (kv := (k, u)) hg hd).symm
          have hzu : Stands S parent E V (expectedOf S parent d) u := .member hz hm hd
          refine finds_shift ?_
          cases hty : d.type with
          | some ty =>
            simp only [hty]
            by_cases hL : ty = "List"
            · subst hL
              rw [if_pos rfl]
              cases hpi : d.primItem with
              | none =>
                obtain ⟨it, r, h1, h2⟩ := hg.items k d hd hty hpi
                have hex : expectedOf S parent d = .objects it := by
                  simp [expectedOf, hty, hpi, h1]
                rw [hex] at hzu ⊢
                simp only [h1, Option.getD_some, typeRow_eq, h2]
                exact objectsCheck_spec hw hp h2 hzu fun xs x hxs hx hs q => ih it r x q (.item hxs h2 hx) (by omega)
              | some prim =>
                have hex : expectedOf S parent d = .prims (prim == "Json") := by
                  simp [expectedOf, hty, hpi]
                rw [hex] at hzu ⊢
                exact primsCheck_spec hw ht hp hzu _
            · rw [if_neg hL]
              by_cases hM : ty = "Map"
              · rw [if_pos hM]
                have hex : expectedOf S parent d = .any := by
                  simp [expectedOf, hty, hM]
                rw [hex]
                exact finds_none fun r => fault_any
              · rw [if_neg hM]
                obtain ⟨r, h2⟩ := hg.types k d ty hd hty hL hM
                have hex : expectedOf S parent d = .object ty r := by
                  simp [expectedOf, hty, hL, hM, h2]
                rw [hex] at hzu ⊢
                simp only [Option.getD_some, typeRow_eq, h2]
                exact ih ty r u _ hzu (by omega)
          | none =>
            simp only [hty]
            cases hpr : d.prim with
            | some prim =>
              have hex : expectedOf S parent d = .prim (prim == "Json") := by
                simp [expectedOf, hty, hpr]
              rw [hex]
              exact C78_prim (sizeOf u + 1) u _ (Nat.lt_succ_self _)
            | none =>
              have hex : expectedOf S parent d = .any := by
                simp [expectedOf, hty, hpr]
              rw [hex]
              exact finds_none fun r => fault_any
      | _ => exact scalar fun _ e => (by cases e)

/-! ### the rule -/

theorem typedResources_iff (hw : t.WF) {name : Key} {r : List (Key × Val)} : (name, r) ∈ resourcesOfType [] t ↔
    ∃ rs ty, At t [.str "Resources"] (.dict rs) ∧ (name, .dict r) ∈ rs ∧ (.str "Type", ty) ∈ r ∧ ty ≠ .none := by
  have wfr : ∀ rs, At t [.str "Resources"] (.dict rs) → (name, .dict r) ∈ rs → (r.map Prod.fst).Nodup := by
    intro rs h1 h2
    have := at_wf (at_dict_one.2 h2) (at_wf h1 hw)
    rw [Val.WF] at this
    exact this.1
  unfold resourcesOfType
  constructor
  · intro h
    split at h
    · rename_i top
      split at h
      · rename_i rs hl
        have hat : At (.dict top) [.str "Resources"] (.dict rs) := at_dict_one.2 (dlookup_mem hl)
        rw [List.mem_filterMap] at h
        obtain ⟨⟨k, v⟩, hm, h⟩ := h
        simp only at h
        cases v with
        | dict r' =>
          simp only [List.any_nil, List.isEmpty_nil, Bool.true_and, Bool.false_or, Option.ite_none_right_eq_some] at h
          obtain ⟨h, e⟩ := h
          cases e
          cases hty : dlookup (Key.str "Type") r with
          | none => rw [hty] at h; exact absurd h (by decide)
          | some ty =>
            rw [hty, Option.getD_some] at h
            exact ⟨rs, ty, hat, hm, dlookup_mem hty, bne_iff_ne.1 h⟩
        | _ => cases h
      · cases h
    · cases h
  · rintro ⟨rs, ty, h1, h2, h3, h4⟩
    have hwr := wfr rs h1 h2
    obtain ⟨top, rfl, h5⟩ := at_key h1 ⟨_, rfl⟩
    rw [Val.WF] at hw
    simp only [dlookup_of_mem hw.1 h5]
    rw [List.mem_filterMap]
    refine ⟨(name, .dict r), h2, ?_⟩
    simp only [dlookup_of_mem hwr h3, Option.getD_some, List.any_nil, List.isEmpty_nil, Bool.true_and, Bool.false_or]
    rw [if_pos (bne_iff_ne.2 h4)]

theorem customType_of (hS : (S.resources.map Prod.fst).Nodup) {ty parent' : String} {row : TypeRow} :
    DeclaredAs S ty parent' row ↔ parent' = customType S ty ∧ dlookup (customType S ty) S.resources = some row := by
  unfold DeclaredAs customType
  have hn : (dlookup ty S.resources).isNone = true ↔ ∀ row', (ty, row') ∉ S.resources := by
    rw [Option.isNone_iff_eq_none, dlookup_none_iff]
    constructor
    · intro h row' hm
      exact h (List.mem_map.2 ⟨_, hm, rfl⟩)
    · intro h hm
      obtain ⟨⟨a, b⟩, hm', rfl⟩ := List.mem_map.1 hm
      exact h b hm'
  by_cases h : ("Custom::".toList.isPrefixOf ty.toList && (dlookup ty S.resources).isNone) = true
  · rw [if_pos h]
    rw [Bool.and_eq_true, customName_iff, hn] at h
    constructor
    · rintro (⟨rfl, h'⟩ | ⟨-, -, rfl, h'⟩)
      · exact absurd h' (h.2 row)
      · exact ⟨rfl, dlookup_of_mem hS h'⟩
    · rintro ⟨rfl, h'⟩
      exact .inr ⟨h.1, h.2, rfl, dlookup_mem h'⟩
  · rw [if_neg h]
    rw [Bool.and_eq_true, customName_iff, hn] at h
    constructor
    · rintro (⟨rfl, h'⟩ | ⟨h1, h2, -⟩)
      · exact ⟨rfl, dlookup_of_mem hS h'⟩
      · exact absurd ⟨h1, h2⟩ h
    · rintro ⟨rfl, h'⟩
      exact .inl ⟨rfl, dlookup_mem h'⟩

/-- (C78) the findings in a template are exactly the faults of the properties of its resources -/
theorem C78_rule_partial (hw : t.WF) (hS : (S.resources.map Prod.fst).Nodup) {fuel : Nat} (hf : sizeOf t < fuel)
    (htext : ∀ name r props ty, PropsOf t name r props → (.str "Type", ty) ∈ r → ty ≠ .none → ∃ s, ty = .str s)
    (hp : ∀ name r props ty parent row, PropsOf t name r props → (.str "Type", .str ty) ∈ r → DeclaredAs S ty parent row →
      PlainProps S t parent (.object "" row) props) :
    ∃ l, propertiesRule S fuel t = .ok l ∧ ∀ q, q ∈ l ↔ ∃ name r props ty parent row s, PropsOf t name r props ∧ (.str "Type", .str ty) ∈ r ∧
      DeclaredAs S ty parent row ∧ PropFault S t parent (.object "" row) props s ∧ q = [.str "Resources", name, .str "Properties"] ++ s := by
  have key : ∃ l, propertiesRule S fuel t = .ok l ∧ ∀ q, q ∈ l ↔ ∃ nr ∈ resourcesOfType [] t, ∃ props ty parent row s,
      (.str "Properties", props) ∈ nr.2 ∧ (.str "Type", .str ty) ∈ nr.2 ∧
      DeclaredAs S ty parent row ∧ PropFault S t parent (.object "" row) props s ∧ q = [.str "Resources", nr.1, .str "Properties"] ++ s := by
    refine collectM_spec ?_
    rintro ⟨name, r⟩ hr
    obtain ⟨rs, ty, h1, h2, h3, h4⟩ := (typedResources_iff hw).1 hr
    have hwr := at_wf (at_dict_one.2 h2) (at_wf h1 hw)
    have ht : ∃ top, t = .dict top := by
      obtain ⟨top, rfl, -⟩ := at_key h1 ⟨_, rfl⟩
      exact ⟨top, rfl⟩
    have hwr' := hwr
    rw [Val.WF] at hwr'
    simp only [dlookup_of_mem hwr'.1 h3]
    cases hpr : dlookup (Key.str "Properties") r with
    | none =>
      refine ⟨[], rfl, fun q => ⟨fun h => (by cases h), ?_⟩⟩
      rintro ⟨props, -, -, -, -, h, -⟩
      exact absurd h (dlookup_noKey hpr props)
    | some props =>
      have hmp := dlookup_mem hpr
      have hpo : PropsOf t name r props := ⟨rs, h1, h2, hmp⟩
      obtain ⟨s, rfl⟩ := htext name r props ty hpo h3 h4
      simp only
      have one : ∀ {props' : Val} {ty' : String}, (.str "Properties", props') ∈ r → (.str "Type", .str ty') ∈ r → props' = props ∧ ty' = s := by
        intro props' ty' ha hb
        rw [dlookup_of_mem hwr'.1 ha] at hpr
        cases hpr
        have e := dlookup_of_mem hwr'.1 h3
        rw [dlookup_of_mem hwr'.1 hb] at e
        cases e
        exact ⟨rfl, rfl⟩
      cases hrow : dlookup (customType S s) S.resources with
      | none =>
        refine ⟨[], rfl, fun q => ⟨fun h => (by cases h), ?_⟩⟩
        rintro ⟨props', ty', parent', row', s', ha, hb, hd, -⟩
        obtain ⟨rfl, rfl⟩ := one ha hb
        rw [((customType_of hS).1 hd).2] at hrow
        cases hrow
      | some row =>
        have hd : DeclaredAs S s (customType S s) row := (customType_of hS).2 ⟨rfl, hrow⟩
        have hsz : sizeOf props < fuel := by
          have := at_size (at_append h1 (at_append (at_dict_one.2 h2) (at_dict_one.2 hmp)))
          omega
        obtain ⟨l, hl, hm⟩ := C78_exact_partial hw ht (hp name r props s _ row hpo h3 hd) fuel "" row props
          [.str "Resources", name, .str "Properties"] .start hsz
        refine ⟨l, hl, fun q => ?_⟩
        rw [hm]
        constructor
        · rintro ⟨x, rfl, hx⟩
          exact ⟨props, s, _, row, x, hmp, h3, hd, hx, rfl⟩
        · rintro ⟨props', ty', parent', row', x, ha, hb, hd', hx, rfl⟩
          obtain ⟨rfl, rfl⟩ := one ha hb
          obtain ⟨rfl, hrow'⟩ := (customType_of hS).1 hd'
          rw [hrow] at hrow'
          cases hrow'
          exact ⟨x, rfl, hx⟩
  obtain ⟨l, hl, hm⟩ := key
  refine ⟨l, hl, fun q => ?_⟩
  rw [hm]
  constructor
  · rintro ⟨⟨name, r⟩, hr, props, ty, parent', row, s, h1, h2, h3, h4, rfl⟩
    obtain ⟨rs, -, h5, h6, -, -⟩ := (typedResources_iff hw).1 hr
    exact ⟨name, r, props, ty, parent', row, s, ⟨rs, h5, h6, h1⟩, h2, h3, h4, rfl⟩
  · rintro ⟨name, r, props, ty, parent', row, s, ⟨rs, h5, h6, h1⟩, h2, h3, h4, rfl⟩
    exact ⟨(name, r), (typedResources_iff hw).2 ⟨rs, _, h5, h6, h2, fun e => (by cases e)⟩, props, ty, parent', row, s, h1, h2, h3, h4, rfl⟩

/-! ### where it is wrong -/

/-- (C78) full statement, which does not hold -/
def C78_statement : Prop := ∀ (S : RowSpecs) (t : Val) (parent name : String) (row : TypeRow) (v : Val), t.WF → (∃ top, t = .dict top) → v.WF →
  (∀ name' row' v', Stands S parent (.object name row) v (.object name' row') v' → GoodRow S parent row') →
  ∀ n p, sizeOf v < n → Finds (rowCheck S t parent n name row v p) p (PropFault S t parent (.object name row) v)

/-- (C78) below a second condition the findings lack a key in their places -/
theorem C78_nested_place {rec : Val → Path → PyM (List Path)} {c c' x y z : Val} {p : Path} {l : List Path}
    (h : objectsCheck rec t (fnIf c (fnIf c' x y) z) p = .ok l) :
    ∃ lx ly lz, objBranch rec t x (p ++ [.str "Fn::If", .int 1, .int 1]) = .ok lx ∧
      objBranch rec t y (p ++ [.str "Fn::If", .int 1, .int 2]) = .ok ly ∧
      objBranch rec t z (p ++ [.str "Fn::If", .int 2]) = .ok lz ∧ l = lx ++ ly ++ lz := by
  have e : objectsCheck rec t (fnIf c (fnIf c' x y) z) p = objCond rec t (.list [c, fnIf c' x y, z]) (p ++ [.str "Fn::If"]) := rfl
  rw [e, objCond, fnIf, objBranch, if_neg (by simp), if_neg (by simp), if_pos rfl, objCond] at h
  simp only [List.append_assoc, List.cons_append, List.nil_append] at h
  cases hx : objBranch rec t x (p ++ [.str "Fn::If", .int 1, .int 1]) with
  | error e => rw [hx] at h; cases h
  | ok lx =>
    cases hy : objBranch rec t y (p ++ [.str "Fn::If", .int 1, .int 2]) with
    | error e => rw [hx, hy] at h; cases h
    | ok ly =>
      cases hz : objBranch rec t z (p ++ [.str "Fn::If", .int 2]) with
      | error e => rw [hx, hy, hz] at h; cases h
      | ok lz =>
        rw [hx, hy, hz] at h
        cases h
        exact ⟨lx, ly, lz, rfl, rfl, rfl, rfl⟩

/-- (C78) a value of a mapping is reported as a branch -/
theorem C78_map_branch {rec : Val → Path → PyM (List Path)} {m : Val} {p : Path} :
    objectsCheck rec t (.dict [(.str "Fn::FindInMap", m)]) p = .ok [] ∧ objBranch rec t (.dict [(.str "Fn::FindInMap", m)]) p = .ok [p] := by
  constructor
  · rfl
  · rw [objBranch, if_neg (by simp), if_neg (by simp), if_neg (by simp)]

/-- (C78) an attribute of a resource that does not exist ends the rule with an error -/
theorem C78_att_raises {rec : Val → Path → PyM (List Path)} {top res : List (Key × Val)} (hw : (Val.dict top).WF) {a : Val} {name : String}
    (hn : name ≠ "") (ha : AttOf a name) (hr : (.str "Resources", .dict res) ∈ top) (hm : ∀ r, (.str name, r) ∉ res) (p : Path) :
    objectsCheck rec (.dict top) (.dict [(.str "Fn::GetAtt", a)]) p = .error (attrErr .none "startswith") := by
  have htr : (Val.str name).truthy = true := by simp [Val.truthy, hn]
  have hl : dlookup (Key.str name) res = none := by
    rw [dlookup_none_iff]
    intro h
    obtain ⟨⟨k, r⟩, h, e⟩ := List.mem_map.1 h
    cases e
    exact hm r h
  rw [Val.WF] at hw
  have e : targetType (.dict top) (.str name) = .ok .none := by
    simp only [targetType, Val.getD, dlookup_of_mem hw.1 hr, Option.getD_some, itemsOf, toKey, Option.bind_some, hl, Option.getD_none, dlookup]
  have e' : objectsCheck rec (.dict top) (.dict [(.str "Fn::GetAtt", a)]) p = attCheck (.dict top) true a p := rfl
  rw [e', attCheck, attTarget_of ha]
  simp only
  rw [if_pos htr, e]

/-- (C78) an object in place of a list of primitive values is accepted unless it has the key `Ref` or calls one of four functions -/
theorem C78_objects_accepted {json : Bool} {kvs : List (Key × Val)} (h1 : ∀ r, (.str "Ref", r) ∉ kvs)
    (h2 : ∀ f a, kvs = [(.str f, a)] → f ∉ singleFunctions) (p : Path) : primsCheck t json (.dict kvs) p = .ok [] := by
  have hl : dlookup (Key.str "Ref") kvs = none := by
    rw [dlookup_none_iff]
    intro h
    obtain ⟨⟨k, r⟩, h, e⟩ := List.mem_map.1 h
    cases e
    exact h1 r h
  simp only [primsCheck, hl]
  match kvs, h2 with
  | [], _ => rfl
  | x :: y :: l, _ => rfl
  | [(k, a)], h2 =>
    simp only
    rw [if_neg]
    intro h
    obtain ⟨f, hf, rfl⟩ := isKeyIn_iff.1 h
    exact h2 f a rfl (singularFunctions_iff.1 hf)

/-- (C78) `AWS::NoValue` is reported in place of a list of primitive values, unless a parameter has that name -/
theorem C78_noValue_reported {json : Bool} {top : List (Key × Val)} (hw : (Val.dict top).WF)
    (h : ∀ ps prm, (.str "Parameters", .dict ps) ∈ top → (.str "AWS::NoValue", prm) ∉ ps) (p : Path) :
    primsCheck (.dict top) json noValue p = .ok [p] := by
  rcases primRef_of hw ⟨top, rfl⟩ (name := "AWS::NoValue") (fun ps prm h1 h2 => absurd h2 (h ps prm (at_dict_one.1 h1))) p with ⟨-, h2⟩ | ⟨h2, -⟩
  · rcases h2 with e | ⟨name, ty, e, ⟨ps, r, h3, h4, -⟩, -⟩
    · simp at e
    · cases e
      exact absurd h4 (h ps _ (at_dict_one.1 h3))
  · exact h2

/-- (C78) the branches of a condition in place of an object are only checked if they are objects or lists -/
theorem C78_branch_scalar {rec : Val → Path → PyM (List Path)} {additional : Bool} {w : Val} {p : Path}
    (h : ∀ q u, Leaf (.dict [(.str "Fn::If", w)]) q u → (∀ m, u ≠ .dict m) ∧ ∀ xs, u ≠ .list xs) :
    unknownKey rec additional [(.str "Fn::If", w)] (.str "Fn::If", w) p = .ok [] := by
  unfold unknownKey
  rw [if_pos ⟨rfl, rfl⟩]
  have key : ∀ c ∈ condValues w (p ++ [.str "Fn::If"]), (∀ m, c.2 ≠ .dict m) ∧ ∀ xs, c.2 ≠ .list xs := by
    rintro ⟨c, u⟩ hc
    obtain ⟨q, -, hl⟩ := mem_condValues_leaf.1 hc
    exact h q u hl
  simp only
  revert key
  induction condValues w (p ++ [.str "Fn::If"]) with
  | nil => intro _; rfl
  | cons c l ih =>
    intro key
    rw [collectM, ih fun c hc => key c (List.mem_cons_of_mem _ hc)]
    obtain ⟨h1, h2⟩ := key c List.mem_cons_self
    obtain ⟨q, u⟩ := c
    cases u with
    | dict m => exact absurd rfl (h1 m)
    | list xs => exact absurd rfl (h2 xs)
    | _ => rfl

/-- (C78) a type that is not a text ends the rule with an error -/
theorem C78_type_raises (hw : t.WF) {fuel : Nat} {name : Key} {r : List (Key × Val)} {props ty : Val} (h : PropsOf t name r props)
    (hty : (.str "Type", ty) ∈ r) (hn : ty ≠ .none) (hs : ∀ s, ty ≠ .str s) : ∃ e, propertiesRule S fuel t = .error e := by
  obtain ⟨rs, h1, h2, h3⟩ := h
  have hwr := at_wf (at_dict_one.2 h2) (at_wf h1 hw)
  rw [Val.WF] at hwr
  cases he : propertiesRule S fuel t with
  | error e => exact ⟨e, rfl⟩
  | ok l =>
    obtain ⟨l', hl'⟩ := collectM_each he (name, r) ((typedResources_iff hw).2 ⟨rs, ty, h1, h2, hty, hn⟩)
    simp only [dlookup_of_mem hwr.1 h3, dlookup_of_mem hwr.1 hty] at hl'
    cases ty with
    | str s => exact absurd rfl (hs s)
    | _ => cases hl'

/-! ### examples -/

def exRowItem : TypeRow := { props := [(.str "K", { prim := some "String" })] }
def exRowTop : TypeRow := { props := [(.str "A", { prim := some "String" }), (.str "B", { type := some "List", itemType := some "Item" }),
  (.str "C", { type := some "List", primItem := some "String" }), (.str "D", { type := some "Item" })] }
def exRowSpecs : RowSpecs := { resources := [("AWS::X", exRowTop)], types := [("AWS::X.Item", exRowItem)] }

/-- the item of the list has a key too many, a function is in the place of a list, the object has a list in the place of a text, and
`Q` is not declared -/
def exRowProps : Val := .dict [(.str "A", .str "x"), (.str "B", .list [.dict [(.str "K", .str "k"), (.str "Z", .str "z")]]),
  (.str "C", .dict [(.str "Fn::Sub", .str "a")]), (.str "D", .dict [(.str "K", .list [.str "1"])]), (.str "Q", .int 1)]
def exRowT : Val := .dict [(.str "Resources", .dict [(.str "R", .dict [(.str "Type", .str "AWS::X"), (.str "Properties", exRowProps)])])]

theorem exRow_good {row : TypeRow} (h : row = exRowTop ∨ row = exRowItem) : GoodRow exRowSpecs "AWS::X" row := by
  rcases h with rfl | rfl
  · refine ⟨by decide +kernel, by simp [exRowTop], ?_, ?_, ?_⟩
    · intro k d hm h1 h2
      simp only [exRowTop, List.mem_cons, Prod.mk.injEq, List.not_mem_nil, or_false] at hm
      rcases hm with ⟨-, rfl⟩ | ⟨-, rfl⟩ | ⟨-, rfl⟩ | ⟨-, rfl⟩ <;> simp at h1 h2
      exact ⟨"Item", exRowItem, rfl, by decide +kernel⟩
    · intro k d ty hm h1 h2 h3
      simp only [exRowTop, List.mem_cons, Prod.mk.injEq, List.not_mem_nil, or_false] at hm
      rcases hm with ⟨-, rfl⟩ | ⟨-, rfl⟩ | ⟨-, rfl⟩ | ⟨-, rfl⟩ <;> simp at h1
      · exact absurd h1.symm h2
      · exact absurd h1.symm h2
      · subst h1
        exact ⟨exRowItem, by decide +kernel⟩
    · intro h; cases h
  · refine ⟨by decide +kernel, by simp [exRowItem], ?_, ?_, ?_⟩
    · intro k d hm h1 h2
      simp only [exRowItem, List.mem_cons, Prod.mk.injEq, List.not_mem_nil, or_false] at hm
      rw [hm.2] at h1
      cases h1
    · intro k d ty hm h1 h2 h3
      simp only [exRowItem, List.mem_cons, Prod.mk.injEq, List.not_mem_nil, or_false] at hm
      rw [hm.2] at h1
      cases h1
    · intro h; cases h

theorem exRow_stands {E : Expected} {v : Val} (h : Stands exRowSpecs "AWS::X" (.object "" exRowTop) exRowProps E v) :
    (E = .object "" exRowTop ∧ v = exRowProps) ∨ (∃ s, E = .prim false ∧ v = .str s) ∨ (∃ xs, E = .prim false ∧ v = .list xs) ∨
    (E = .objects "Item" ∧ v = .list [.dict [(.str "K", .str "k"), (.str "Z", .str "z")]]) ∨
    (E = .object "Item" exRowItem ∧ v = .dict [(.str "K", .str "k"), (.str "Z", .str "z")]) ∨
    (E = .prims false ∧ v = .dict [(.str "Fn::Sub", .str "a")]) ∨ (E = .object "Item" exRowItem ∧ v = .dict [(.str "K", .list [.str "1"])]) := by
  have hrow : rowNamed exRowSpecs "AWS::X" "Item" = some exRowItem := by decide +kernel
  induction h with
  | start => exact .inl ⟨rfl, rfl⟩
  | branch _ hl ih =>
    have same : ∀ {kvs : List (Key × Val)} {q : Path} {u : Val}, (∀ w, kvs ≠ [(.str "Fn::If", w)]) → Leaf (.dict kvs) q u → u = .dict kvs := by
      intro kvs q u hi h
      cases h with
      | here => rfl
      | left => exact absurd rfl (hi _)
      | right => exact absurd rfl (hi _)
    rcases ih with ⟨e, rfl⟩ | ⟨s, e, -⟩ | ⟨xs, e, -⟩ | ⟨e, -⟩ | ⟨e, rfl⟩ | ⟨e, -⟩ | ⟨e, rfl⟩
    · exact .inl ⟨e, same (by intro w; simp) hl⟩
    · cases e
    · cases e
    · cases e
    · exact .inr (.inr (.inr (.inr (.inl ⟨e, same (by intro w; simp) hl⟩))))
    · cases e
    · exact .inr (.inr (.inr (.inr (.inr (.inr ⟨e, same (by intro w; simp) hl⟩)))))
  | member _ hk hd ih =>
    rcases ih with ⟨e, e'⟩ | ⟨s, e, -⟩ | ⟨xs, e, -⟩ | ⟨e, -⟩ | ⟨e, e'⟩ | ⟨e, -⟩ | ⟨e, e'⟩
    · cases e
      cases e'
      simp only [List.mem_cons, Prod.mk.injEq, List.not_mem_nil, or_false, exRowTop] at hk hd
      rcases hk with ⟨rfl, rfl⟩ | ⟨rfl, rfl⟩ | ⟨rfl, rfl⟩ | ⟨rfl, rfl⟩ | ⟨rfl, rfl⟩ <;> simp at hd <;> subst hd
      · exact .inr (.inl ⟨"x", rfl, rfl⟩)
      · exact .inr (.inr (.inr (.inl ⟨rfl, rfl⟩)))
      · exact .inr (.inr (.inr (.inr (.inr (.inl ⟨rfl, rfl⟩)))))
      · exact .inr (.inr (.inr (.inr (.inr (.inr ⟨by simp [expectedOf, hrow], rfl⟩)))))
    · cases e
    · cases e
    · cases e
    · cases e
      cases e'
      simp only [List.mem_cons, Prod.mk.injEq, List.not_mem_nil, or_false, exRowItem] at hk hd
      rcases hk with ⟨rfl, rfl⟩ | ⟨rfl, rfl⟩ <;> simp at hd
      subst hd
      exact .inr (.inl ⟨"k", rfl, rfl⟩)
    · cases e
    · cases e
      cases e'
      simp only [List.mem_cons, Prod.mk.injEq, List.not_mem_nil, or_false, exRowItem] at hk hd
      obtain ⟨rfl, rfl⟩ := hk
      simp at hd
      subst hd
      exact .inr (.inr (.inl ⟨_, rfl, rfl⟩))
  | element _ h1 _ _ _ ih =>
    rcases ih with ⟨e, e'⟩ | ⟨s, e, -⟩ | ⟨xs, e, -⟩ | ⟨e, -⟩ | ⟨e, e'⟩ | ⟨e, -⟩ | ⟨e, e'⟩ <;> cases e
    all_goals cases e'
  | item _ h1 h2 ih =>
    rcases ih with ⟨e, e'⟩ | ⟨s, e, -⟩ | ⟨xs, e, -⟩ | ⟨e, e'⟩ | ⟨e, e'⟩ | ⟨e, -⟩ | ⟨e, e'⟩ <;> cases e
    cases e'
    rw [hrow] at h1
    cases h1
    rw [List.mem_singleton] at h2
    exact .inr (.inr (.inr (.inr (.inl ⟨rfl, h2⟩))))
  | left _ ih =>
    rcases ih with ⟨e, e'⟩ | ⟨s, e, -⟩ | ⟨xs, e, -⟩ | ⟨e, e'⟩ | ⟨e, e'⟩ | ⟨e, -⟩ | ⟨e, e'⟩ <;> cases e
    cases e'
  | right _ ih =>
    rcases ih with ⟨e, e'⟩ | ⟨s, e, -⟩ | ⟨xs, e, -⟩ | ⟨e, e'⟩ | ⟨e, e'⟩ | ⟨e, -⟩ | ⟨e, e'⟩ <;> cases e
    cases e'

theorem exRow_plain : PlainProps exRowSpecs exRowT "AWS::X" (.object "" exRowTop) exRowProps := by
  refine ⟨?_, ?_, ?_, ?_, ?_, ?_, ?_⟩
  · intro name row v h
    rcases exRow_stands h with ⟨e, -⟩ | ⟨s, e, -⟩ | ⟨xs, e, -⟩ | ⟨e, -⟩ | ⟨e, -⟩ | ⟨e, -⟩ | ⟨e, -⟩ <;> cases e
    · exact exRow_good (.inl rfl)
    · exact exRow_good (.inr rfl)
    · exact exRow_good (.inr rfl)
  · rintro name row v q u h ⟨w, rfl⟩ -
    rcases exRow_stands h with ⟨e, e'⟩ | ⟨s, e, e'⟩ | ⟨xs, e, e'⟩ | ⟨e, e'⟩ | ⟨e, e'⟩ | ⟨e, e'⟩ | ⟨e, e'⟩
    all_goals simp [exRowProps] at e'
  · intro name row k u h
    rcases exRow_stands h with ⟨e, e'⟩ | ⟨s, e, e'⟩ | ⟨xs, e, e'⟩ | ⟨e, e'⟩ | ⟨e, e'⟩ | ⟨e, e'⟩ | ⟨e, e'⟩
    all_goals simp [exRowProps] at e'
    · cases e
    · exact ⟨"K", e'.1, fun h' => (by rw [e'.2] at h'; cases h')⟩
  · intro ty a h
    rcases exRow_stands h with ⟨e, e'⟩ | ⟨s, e, e'⟩ | ⟨xs, e, e'⟩ | ⟨e, e'⟩ | ⟨e, e'⟩ | ⟨e, e'⟩ | ⟨e, e'⟩
    all_goals simp [exRowProps] at e'
  · intro ty a h
    rcases exRow_stands h with ⟨e, e'⟩ | ⟨s, e, e'⟩ | ⟨xs, e, e'⟩ | ⟨e, e'⟩ | ⟨e, e'⟩ | ⟨e, e'⟩ | ⟨e, e'⟩
    all_goals simp [exRowProps] at e'
  · intro json kvs h
    rcases exRow_stands h with ⟨e, e'⟩ | ⟨s, e, e'⟩ | ⟨xs, e, e'⟩ | ⟨e, e'⟩ | ⟨e, e'⟩ | ⟨e, e'⟩ | ⟨e, e'⟩ <;> cases e
    cases e'
    exact ⟨_, _, rfl, by decide +kernel⟩
  · intro json r h
    rcases exRow_stands h with ⟨e, e'⟩ | ⟨s, e, e'⟩ | ⟨xs, e, e'⟩ | ⟨e, e'⟩ | ⟨e, e'⟩ | ⟨e, e'⟩ | ⟨e, e'⟩
    all_goals simp [exRowProps] at e'

/-- the hypotheses of `C78_exact_partial` are met, with findings -/
example : exRowT.WF ∧ PlainProps exRowSpecs exRowT "AWS::X" (.object "" exRowTop) exRowProps ∧
    rowCheck exRowSpecs exRowT "AWS::X" 100 "" exRowTop exRowProps [] =
      .ok [[.str "B", .int 0, .str "Z"], [.str "C"], [.str "D", .str "K"], [.str "Q"]] :=
  ⟨by simp [exRowT, exRowProps, Val.WF, Val.WFDict, Val.WFList], exRow_plain, by decide +kernel⟩

theorem C78_violated : ¬ C78_statement := by
  intro h
  have hrow : GoodRow exRowSpecs "AWS::X" exRowTop := exRow_good (.inl rfl)
  obtain ⟨l, h1, h2⟩ := h exRowSpecs (.dict []) "AWS::X" "" exRowTop (.dict [(.str "C", noValue)]) (by simp [Val.WF, Val.WFDict]) ⟨[], rfl⟩
    (by simp [Val.WF, Val.WFDict, noValue]) (by
      have key : ∀ E v, Stands exRowSpecs "AWS::X" (.object "" exRowTop) (.dict [(.str "C", noValue)]) E v →
          (E = .object "" exRowTop ∧ v = .dict [(.str "C", noValue)]) ∨ E = .prims false := by
        intro E v h
        induction h with
        | start => exact .inl ⟨rfl, rfl⟩
        | branch _ hl ih =>
          rcases ih with ⟨e, rfl⟩ | e
          · refine .inl ⟨e, ?_⟩
            exact ((leaf_of_notIf (notIf_key (by simp))).1 hl).2.1
          · cases e
        | member _ hk hd ih =>
          rcases ih with ⟨e, e'⟩ | e
          · cases e
            cases e'
            simp only [List.mem_cons, Prod.mk.injEq, List.not_mem_nil, or_false, exRowTop] at hk hd
            obtain ⟨rfl, rfl⟩ := hk
            simp at hd
            subst hd
            exact .inr rfl
          · cases e
        | element _ _ _ _ _ ih =>
          rcases ih with ⟨e, e'⟩ | e
          · cases e'
          · cases e
        | item _ _ _ ih =>
          rcases ih with ⟨e, e'⟩ | e <;> cases e
        | left _ ih =>
          rcases ih with ⟨e, e'⟩ | e <;> cases e
        | right _ ih =>
          rcases ih with ⟨e, e'⟩ | e <;> cases e
      intro name' row' v' hs
      rcases key _ _ hs with ⟨e, -⟩ | e
      · cases e
        exact hrow
      · cases e) 100000 [] (by decide +kernel)
  have e : rowCheck exRowSpecs (.dict []) "AWS::X" 100000 "" exRowTop (.dict [(.str "C", noValue)]) [] = .ok [[.str "C"]] := by decide +kernel
  rw [e] at h1
  cases h1
  obtain ⟨r, hr, hf⟩ := (h2 [.str "C"]).1 List.mem_cons_self
  rw [List.nil_append] at hr
  subst hr
  rw [fault_keys hrow (by simp [exRowTop])] at hf
  obtain ⟨kv, hm, hf⟩ := hf
  rw [List.mem_singleton] at hm
  subst hm
  rw [keyFault_known (d := { type := some "List", primItem := some "String" }) hrow (by simp [exRowTop])] at hf
  obtain ⟨s, -, hf⟩ := hf
  have hf' : PropFault exRowSpecs (.dict []) "AWS::X" (.prims false) noValue s := hf
  rw [noValue, fault_call (by decide +kernel)] at hf'
  rcases hf'.1 with h | ⟨-, h, -⟩
  · exact absurd h (by decide +kernel)
  · exact h rfl

end CfnLint
