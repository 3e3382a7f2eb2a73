import Verif.Model.Join
import Verif.Spec.Join
import Verif.Props.FnShape
import Verif.Props.GetAtt
import Verif.Lemmas.SubRule
import Mathlib.Tactic.Tauto
/- Properties of the rule on `Fn::Join` (C73). -/
namespace CfnLint
open Spec

theorem hasResource_unique {t : Val} (hw : t.WF) {R ty ty' : String} (h : HasResource t R ty) (h' : HasResource t R ty') : ty = ty' := by
  obtain ⟨top, res, props, rfl, h1, h2, h3⟩ := h
  obtain ⟨top', res', props', e, h1', h2', h3'⟩ := h'
  cases e
  have a1 : At (.dict top) [.str "Resources", .str R, .str "Type"] (.str ty) := .key h1 (.key h2 (.key h3 .here))
  have a2 : At (.dict top) [.str "Resources", .str R, .str "Type"] (.str ty') := .key h1' (.key h2' (.key h3' .here))
  have := at_det hw a1 a2
  cases this
  rfl

theorem refIsList_spec {t : Val} (ht : PlainSections t) {types : List (Key × Val)} (h : subParameterTypes t = .ok types) (n : String) :
    ∃ b, refIsList types (.str n) = .ok b ∧ (b = true ↔ ListRef t n) := by
  obtain ⟨types', h', hs⟩ := subParameterTypes_spec ht
  rw [h] at h'
  cases h'
  refine ⟨_, rfl, ?_⟩
  obtain ⟨h1, h2⟩ := hs n
  rw [Bool.or_eq_true, decide_eq_true_iff]
  unfold ListRef
  simp only [toKey, Option.bind_some, Val.str.injEq]
  cases hl : dlookup (Key.str n) types with
  | none =>
    have : ¬ ListParameter t n := by
      rintro ⟨ty, h3, -⟩
      obtain ⟨u, h3, -⟩ := at_split (p := [.str "Parameters", .str n]) (q := [.str "Type"]) h3
      obtain ⟨ty', h4⟩ := h1.1 ⟨u, h3⟩
      rw [hl] at h4
      cases h4
    simp [this]
  | some ty =>
    simp only [h2 ty hl]
    exact Or.comm

theorem joinNormalize_two {v : Val} {R A : String} (h : NamesTwo v R A) : joinNormalize v = .list [.str R, .str A] := by
  rcases h with ⟨rfl, hR⟩ | rfl
  · have e : (R ++ "." ++ A).toList = R.toList ++ '.' :: A.toList := by simp
    unfold joinNormalize
    simp only
    rw [e, splitOn_append _ hR]
    cases hs : splitOn '.' A.toList with
    | nil => exact absurd hs (splitOn_ne_nil _ _)
    | cons x xs =>
      simp only
      rw [← hs, intercalate_splitOn]
      simp
  · rfl

/-- what decides about an attribute -/
theorem getAttIsList_cases (R A : String) : ∀ l : List (Key × String × AttrDecl),
    (∃ d, (Key.str R, "*", d) ∈ l ∧ getAttIsList (.list [.str R, .str A]) l = .ok (starAnswer d)) ∨
    ((∃ d, (Key.str R, A, d) ∈ l ∧ d.type = some "List") ∧ getAttIsList (.list [.str R, .str A]) l = .ok .yes) ∨
    ((∀ d, (Key.str R, "*", d) ∉ l) ∧ (∀ d, (Key.str R, A, d) ∈ l → d.type ≠ some "List") ∧
      getAttIsList (.list [.str R, .str A]) l = .ok .no)
  | [] => .inr (.inr ⟨by simp, by simp, rfl⟩)
  | (r, n, d) :: rest => by
    have e : getAttIsList (.list [.str R, .str A]) ((r, n, d) :: rest) =
        if r = .str R then (if n = "*" then .ok (starAnswer d) else if A = n ∧ d.type = some "List" then .ok .yes
          else getAttIsList (.list [.str R, .str A]) rest) else getAttIsList (.list [.str R, .str A]) rest := by
      rw [getAttIsList]
      have h0 : (Val.list [.str R, .str A]).subscript (.int 0) = .ok (.str R) := rfl
      have h1 : (Val.list [.str R, .str A]).subscript (.int 1) = .ok (.str A) := rfl
      rw [h0, h1]
      simp only [toKey, Option.some.injEq, Key.str.injEq]
      by_cases hr : r = .str R
      · subst hr
        simp
      · rw [if_neg hr, if_neg (fun h => hr h.symm)]
    have ih := getAttIsList_cases R A rest
    rw [e]
    by_cases hr : r = .str R
    · subst hr
      rw [if_pos rfl]
      by_cases hn : n = "*"
      · subst hn
        rw [if_pos rfl]
        exact .inl ⟨d, List.mem_cons_self, rfl⟩
      · rw [if_neg hn]
        by_cases hm : A = n ∧ d.type = some "List"
        · rw [if_pos hm]
          obtain ⟨rfl, hd⟩ := hm
          exact .inr (.inl ⟨⟨d, List.mem_cons_self, hd⟩, rfl⟩)
        · rw [if_neg hm]
          rcases ih with ⟨d', h1, h2⟩ | ⟨⟨d', h1, h1'⟩, h2⟩ | ⟨h1, h2, h3⟩
          · exact .inl ⟨d', List.mem_cons_of_mem _ h1, h2⟩
          · exact .inr (.inl ⟨⟨d', List.mem_cons_of_mem _ h1, h1'⟩, h2⟩)
          · refine .inr (.inr ⟨fun d' h => ?_, fun d' h hd => ?_, h3⟩)
            · rcases List.mem_cons.1 h with h | h
              · cases h; exact hn rfl
              · exact h1 d' h
            · rcases List.mem_cons.1 h with h | h
              · cases h; exact hm ⟨rfl, hd⟩
              · exact h2 d' h hd
    · rw [if_neg hr]
      rcases ih with ⟨d', h1, h2⟩ | ⟨⟨d', h1, h1'⟩, h2⟩ | ⟨h1, h2, h3⟩
      · exact .inl ⟨d', List.mem_cons_of_mem _ h1, h2⟩
      · exact .inr (.inl ⟨⟨d', List.mem_cons_of_mem _ h1, h1'⟩, h2⟩)
      · refine .inr (.inr ⟨fun d' h => ?_, fun d' h hd => ?_, h3⟩)
        · rcases List.mem_cons.1 h with h | h
          · cases h; exact hr rfl
          · exact h1 d' h
        · rcases List.mem_cons.1 h with h | h
          · cases h; exact hr rfl
          · exact h2 d' h hd

/-- no attribute `*` in the specification -/
def NoStar (S : AttrSpecs) : Prop := ∀ ty attrs d, dlookup ty S = some (some attrs) → ("*", d) ∉ attrs

theorem getAttIsList_spec {S : AttrSpecs} {t : Val} (ht : PlainSections t) (hc : ClosedTypes t) (hS : NoStar S) {table : AttrTable}
    (h : validGetAtts S t = .ok table) {R A : String} (hm : ¬ ModuleInner t R) :
    ∃ a, getAttIsList (.list [.str R, .str A]) (table.flatMap (fun r => r.2.map (fun a => (r.1, a)))) = .ok a ∧
      (a = .yes ↔ ListAttr S t R A) ∧ (a ≠ .no ↔ ListAttr S t R A ∨ OpenAttr t R) := by
  obtain ⟨table', h', hflat⟩ := validGetAtts_spec (S := S) ht
  rw [h] at h'
  cases h'
  have hopen : OpenAttr t R ↔ ∃ ty, HasResource t R ty ∧ OpenType ty ∧ ty ≠ "AWS::CloudFormation::Stack" := by
    unfold OpenAttr
    exact ⟨fun h => h.resolve_right hm, .inl⟩
  rw [hopen]
  have hclosed : ∀ {ty attrs}, HasResource t R ty → ¬ OpenType ty → typeAttrs S ty = some attrs → dlookup ty S = some (some attrs) := by
    intro ty attrs h1 h2 h3
    rw [typeAttrs_closed h2 (hc.stack R ty h1) (hc.custom R ty h1)] at h3
    obtain ⟨o, h4, h5⟩ := Option.bind_eq_some_iff.1 h3
    have : o = some attrs := h5
    rw [h4, this]
  have hclosed' : ∀ {ty attrs}, HasResource t R ty → ¬ OpenType ty → dlookup ty S = some (some attrs) → typeAttrs S ty = some attrs := by
    intro ty attrs h1 h2 h3
    rw [typeAttrs_closed h2 (hc.stack R ty h1) (hc.custom R ty h1), h3]
    rfl
  rcases getAttIsList_cases R A (table.flatMap (fun r => r.2.map (fun a => (r.1, a)))) with ⟨d, h1, h2⟩ | ⟨⟨d, h1, h1'⟩, h2⟩ | ⟨h1, h2, h3⟩
  · obtain ⟨ty, attrs, hr, hta, hmem⟩ := (hflat _ _).1 h1
    have ho : OpenType ty := by
      by_contra ho
      exact hS _ _ _ (hclosed hr ho hta) hmem
    rw [typeAttrs_open ho] at hta
    cases hta
    cases List.mem_singleton.1 hmem
    have hnl : ¬ ListAttr S t R A := by
      rintro ⟨ty', attrs, d, hr', hno, -⟩
      cases hasResource_unique ht.wf hr hr'
      exact hno ho
    refine ⟨_, h2, ?_⟩
    by_cases hst : startsWith ty "AWS::CloudFormation::Stack" = true
    · have e := hc.stack R ty hr (startsAs_iff.1 hst)
      subst e
      refine ⟨⟨fun h => ?_, fun h => absurd h hnl⟩, ⟨fun h => ?_, ?_⟩⟩
      · exact absurd h (by decide)
      · exact absurd h (by decide)
      · rintro (h | ⟨ty', hr', -, hne⟩)
        · exact absurd h hnl
        · exact absurd (hasResource_unique ht.wf hr' hr) hne
    · rw [if_neg hst]
      refine ⟨⟨fun h => ?_, fun h => absurd h hnl⟩, ⟨fun _ => .inr ⟨ty, hr, ho, ?_⟩, fun _ => by decide⟩⟩
      · exact absurd h (by decide)
      · rintro rfl
        exact hst (by decide)
  · obtain ⟨ty, attrs, hr, hta, hmem⟩ := (hflat _ _).1 h1
    have hl : ListAttr S t R A := by
      by_cases ho : OpenType ty
      · rw [typeAttrs_open ho] at hta
        cases hta
        cases List.mem_singleton.1 hmem
        cases h1'
      · exact ⟨ty, attrs, d, hr, ho, hclosed hr ho hta, hmem, h1'⟩
    exact ⟨_, h2, ⟨fun _ => hl, fun _ => rfl⟩, ⟨fun _ => .inl hl, fun _ => by decide⟩⟩
  · have hnl : ¬ ListAttr S t R A := by
      rintro ⟨ty, attrs, d, hr, hno, hd, hmem, hl⟩
      exact h2 d ((hflat _ _).2 ⟨ty, attrs, hr, hclosed' hr hno hd, hmem⟩) hl
    refine ⟨_, h3, ⟨fun h => (by cases h), fun h => absurd h hnl⟩, ⟨fun h => absurd rfl h, ?_⟩⟩
    rintro (h | ⟨ty, hr, ho, -⟩)
    · exact absurd h hnl
    · exact absurd ((hflat _ _).2 ⟨ty, _, hr, typeAttrs_open ho, List.mem_cons_self⟩) (h1 _)

/-- the check reports the path `p` unless `Good` -/
def ReportsOne (p : Path) (Good : Prop) (r : PyM (List Path)) : Prop := ∃ l, r = .ok l ∧ ∀ p', p' ∈ l ↔ p' = p ∧ ¬ Good

theorem reports_good {p : Path} {Good : Prop} (h : Good) : ReportsOne p Good (.ok []) := ⟨_, rfl, fun p' => by simp [h]⟩

theorem reports_bad {p : Path} {Good : Prop} (h : ¬ Good) : ReportsOne p Good (.ok [p]) := ⟨_, rfl, fun p' => by simp [h]⟩

theorem reports_if {p : Path} {Good : Prop} {b : Bool} (h : b = true ↔ Good) : ReportsOne p Good (.ok (if b then [] else [p])) := by
  cases b with
  | true => exact reports_good (h.1 rfl)
  | false => exact reports_bad (fun h' => by cases h.2 h')

theorem namesTwo_names {v : Val} {R A : String} (h : NamesTwo v R A) : NamesAttr v R A := by
  rcases h with h | h
  · exact .inl h
  · exact .inr ⟨[A], by simp, by simpa using h, rfl⟩

theorem namesTwo_unique {v : Val} {R A R' A' : String} (h : NamesTwo v R A) (h' : NamesAttr v R' A') : R' = R ∧ A' = A := by
  rcases h with ⟨rfl, hR⟩ | rfl
  · rcases h' with ⟨e, hR'⟩ | ⟨parts, _, e, _⟩
    · have e2 := congrArg (fun x => match x with | Val.str s => splitOn '.' s.toList | _ => []) e
      simp only [String.toList_append] at e2
      rw [List.append_assoc, List.append_assoc, show ".".toList = ['.'] from rfl, List.singleton_append, List.singleton_append,
        splitOn_append _ hR, splitOn_append _ hR'] at e2
      injection e2 with e3 e4
      have e5 := congrArg (List.intercalate ['.']) e4
      rw [intercalate_splitOn, intercalate_splitOn] at e5
      exact ⟨(String.toList_injective e3).symm, (String.toList_injective e5).symm⟩
    · cases e
  · rcases h' with ⟨e, _⟩ | ⟨parts, hne, e, rfl⟩
    · cases e
    · match parts, e with
      | [a], e =>
        simp only [List.map_cons, List.map_nil, Val.list.injEq, List.cons.injEq, Val.str.injEq, and_true] at e
        obtain ⟨rfl, rfl⟩ := e
        exact ⟨rfl, rfl⟩
      | _ :: _ :: _, e => simp at e

/-- the functions of one kind that are neither `Ref` nor `Fn::GetAtt` -/
def joinItemCalls : List String := ["Fn::Base64", "Fn::FindInMap", "Fn::If", "Fn::ImportValue", "Fn::Join", "Fn::Select", "Fn::Sub"]
def joinListCalls : List String := ["Fn::Cidr", "Fn::FindInMap", "Fn::GetAZs", "Fn::If", "Fn::Select", "Fn::Split"]

theorem joinItem_dict {S : AttrSpecs} {t : Val} {k : Key} {v : Val} : JoinItem S t (.dict [(k, v)]) ↔
    (k = .str "Ref" ∧ ∃ n, v = .str n ∧ ¬ ListRef t n) ∨
    (k = .str "Fn::GetAtt" ∧ ∃ R A, NamesAttr v R A ∧ ¬ ListAttr S t R A) ∨ isKeyIn k joinItemCalls = true := by
  constructor
  · generalize e : Val.dict [(k, v)] = w
    intro h
    cases h with
    | text => cases e
    | ref h => cases e; exact .inl ⟨rfl, _, rfl, h⟩
    | attr h h' => cases e; exact .inr (.inl ⟨rfl, _, _, h, h'⟩)
    | call h => subst e; exact .inr (.inr (oneCall_dict.1 h))
  · rintro (⟨rfl, n, rfl, h⟩ | ⟨rfl, R, A, h, h'⟩ | h)
    · exact .ref h
    · exact .attr h h'
    · exact .call (oneCall_dict.2 h)

theorem joinList_dict {S : AttrSpecs} {t : Val} {k : Key} {v : Val} : JoinList S t (.dict [(k, v)]) ↔
    (k = .str "Ref" ∧ ∃ n, v = .str n ∧ ListRef t n) ∨
    (k = .str "Fn::GetAtt" ∧ ∃ R A, NamesAttr v R A ∧ (ListAttr S t R A ∨ OpenAttr t R)) ∨ isKeyIn k joinListCalls = true := by
  constructor
  · generalize e : Val.dict [(k, v)] = w
    intro h
    cases h with
    | list => cases e
    | ref h => cases e; exact .inl ⟨rfl, _, rfl, h⟩
    | attr h h' => cases e; exact .inr (.inl ⟨rfl, _, _, h, h'⟩)
    | call h => subst e; exact .inr (.inr (oneCall_dict.1 h))
  · rintro (⟨rfl, n, rfl, h⟩ | ⟨rfl, R, A, h, h'⟩ | h)
    · exact .ref h
    · exact .attr h h'
    · exact .call (oneCall_dict.2 h)

theorem singular_split {k : Key} : isKeyIn k joinSingularFunctions = true ↔
    k = .str "Ref" ∨ k = .str "Fn::GetAtt" ∨ isKeyIn k joinItemCalls = true := by
  simp only [isKeyIn_iff, joinSingularFunctions, joinItemCalls, List.mem_cons, List.not_mem_nil, or_false]
  constructor
  · rintro ⟨s, h, rfl⟩
    simp only [Key.str.injEq, exists_eq_right']
    tauto
  · rintro (rfl | rfl | ⟨s, h, rfl⟩)
    · exact ⟨_, by tauto, rfl⟩
    · exact ⟨_, by tauto, rfl⟩
    · exact ⟨_, by tauto, rfl⟩

theorem listFunctions_split {k : Key} : isKeyIn k joinListFunctions = true ↔
    k = .str "Ref" ∨ k = .str "Fn::GetAtt" ∨ isKeyIn k joinListCalls = true := by
  simp only [isKeyIn_iff, joinListFunctions, joinListCalls, List.mem_cons, List.not_mem_nil, or_false]
  constructor
  · rintro ⟨s, h, rfl⟩
    simp only [Key.str.injEq, exists_eq_right']
    tauto
  · rintro (rfl | rfl | ⟨s, h, rfl⟩)
    · exact ⟨_, by tauto, rfl⟩
    · exact ⟨_, by tauto, rfl⟩
    · exact ⟨_, by tauto, rfl⟩

theorem joinElement_spec {S : AttrSpecs} {t : Val} (ht : PlainSections t) (hc : ClosedTypes t) (hS : NoStar S) {table : AttrTable}
    (hg : validGetAtts S t = .ok table) {types : List (Key × Val)} (hp : subParameterTypes t = .ok types) (p : Path) {x : Val}
    (hr : ∀ v, x = .dict [(.str "Ref", v)] → ∃ n, v = .str n)
    (ha : ∀ v, x = .dict [(.str "Fn::GetAtt", v)] → ∃ R A, NamesTwo v R A ∧ ¬ ModuleInner t R) :
    ReportsOne p (JoinItem S t x) (joinElement types (table.flatMap (fun r => r.2.map (fun a => (r.1, a)))) p x) := by
  unfold joinElement
  split
  · rename_i k v
    rw [joinItem_dict]
    by_cases hk : isKeyIn k joinSingularFunctions = true
    · rw [if_neg (by rw [hk]; simp)]
      split
      · rename_i h
        subst h
        obtain ⟨n, rfl⟩ := hr v rfl
        obtain ⟨b, hb, hbi⟩ := refIsList_spec ht hp n
        rw [hb]
        have : (if b = true then [p] else []) = if (!b) = true then [] else [p] := by cases b <;> rfl
        change ReportsOne p _ (.ok (if b = true then [p] else []))
        rw [this]
        refine reports_if ?_
        rw [Bool.not_eq_true', ← Bool.not_eq_true, hbi]
        have hd : isKeyIn (.str "Ref") joinItemCalls = false := by decide
        simp [hd]
      · rename_i hnr
        split
        · rename_i h
          subst h
          obtain ⟨R, A, h2, hm⟩ := ha v rfl
          obtain ⟨a, h3, h4, -⟩ := getAttIsList_spec ht hc hS hg (A := A) hm
          rw [joinNormalize_two h2, h3]
          have : (if a = .yes then [p] else []) = if (decide (a ≠ .yes)) = true then [] else [p] := by cases a <;> rfl
          change ReportsOne p _ (.ok (if a = .yes then [p] else []))
          rw [this]
          refine reports_if ?_
          rw [decide_eq_true_iff, ne_eq, h4]
          have hd : isKeyIn (.str "Fn::GetAtt") joinItemCalls = false := by decide
          simp only [hnr, false_and, false_or, true_and, hd, Bool.false_eq_true, or_false]
          constructor
          · exact fun h => ⟨R, A, namesTwo_names h2, h⟩
          · rintro ⟨R', A', h, h'⟩
            obtain ⟨rfl, rfl⟩ := namesTwo_unique h2 h
            exact h'
        · rename_i hng
          exact reports_good (.inr (.inr (((singular_split.1 hk).resolve_left hnr).resolve_left hng)))
    · rw [if_pos (by simpa using hk)]
      refine reports_bad fun h => hk (singular_split.2 ?_)
      rcases h with ⟨h, -⟩ | ⟨h, -⟩ | h
      · exact .inl h
      · exact .inr (.inl h)
      · exact .inr (.inr h)
  · exact reports_good .text
  · rename_i h1 h2
    refine reports_bad fun h => ?_
    cases h with
    | text => exact h2 _ rfl
    | ref _ => exact h1 _ _ rfl
    | attr _ _ => exact h1 _ _ rfl
    | call h =>
      obtain ⟨g, _, a, rfl⟩ := h
      exact h1 _ _ rfl

theorem joinCallList_spec {S : AttrSpecs} {t : Val} (ht : PlainSections t) (hc : ClosedTypes t) (hS : NoStar S) {table : AttrTable}
    (hg : validGetAtts S t = .ok table) {types : List (Key × Val)} (hp : subParameterTypes t = .ok types) (p : Path) {k : Key} {v : Val}
    (hr : k = .str "Ref" → ∃ n, v = .str n)
    (ha : k = .str "Fn::GetAtt" → ∃ R A, NamesTwo v R A ∧ ¬ ModuleInner t R) :
    ReportsOne p (JoinList S t (.dict [(k, v)])) (joinCallList types (table.flatMap (fun r => r.2.map (fun a => (r.1, a)))) p k v) := by
  unfold joinCallList
  rw [joinList_dict]
  by_cases hk : isKeyIn k joinListFunctions = true
  · rw [if_neg (by rw [hk]; simp)]
    split
    · rename_i h
      subst h
      obtain ⟨n, rfl⟩ := hr rfl
      obtain ⟨b, hb, hbi⟩ := refIsList_spec ht hp n
      rw [hb]
      refine reports_if ?_
      rw [hbi]
      have hd : isKeyIn (.str "Ref") joinListCalls = false := by decide
      simp [hd]
    · rename_i hnr
      split
      · rename_i h
        subst h
        obtain ⟨R, A, h2, hm⟩ := ha rfl
        obtain ⟨a, h3, -, h4⟩ := getAttIsList_spec ht hc hS hg (A := A) hm
        rw [joinNormalize_two h2, h3]
        have : (if a = .no then [p] else []) = if (decide (a ≠ .no)) = true then [] else [p] := by cases a <;> rfl
        change ReportsOne p _ (.ok (if a = .no then [p] else []))
        rw [this]
        refine reports_if ?_
        rw [decide_eq_true_iff, h4]
        have hd : isKeyIn (.str "Fn::GetAtt") joinListCalls = false := by decide
        simp only [hnr, false_and, false_or, true_and, hd, Bool.false_eq_true, or_false]
        constructor
        · exact fun h => ⟨R, A, namesTwo_names h2, h⟩
        · rintro ⟨R', A', h, h'⟩
          obtain ⟨rfl, rfl⟩ := namesTwo_unique h2 h
          exact h'
      · rename_i hng
        exact reports_good (.inr (.inr (((listFunctions_split.1 hk).resolve_left hnr).resolve_left hng)))
  · rw [if_pos (by simpa using hk)]
    refine reports_bad fun h => hk (listFunctions_split.2 ?_)
    rcases h with ⟨h, -⟩ | ⟨h, -⟩ | h
    · exact .inl h
    · exact .inr (.inl h)
    · exact .inr (.inr h)

/-- **C73**, in full: rule E1022 ends normally and reports exactly the calls of `Fn::Join` that are at fault. -/
def C73_statement : Prop := ∀ (S : AttrSpecs) (t : Val), NoStar S → PlainSections t → ClosedTypes t →
  ∃ res, joinRule S t (.dict []) = .ok res ∧ ∀ p, p ∈ res ↔ BadCall "Fn::Join" (BadJoin S t) t p

/-- **C73** (partial: the references are texts and the attributes are named in two parts, not inside of modules) -/
theorem C73_exact_partial {S : AttrSpecs} {t : Val} (hS : NoStar S) (ht : PlainSections t) (hc : ClosedTypes t) (hj : PlainJoins t) :
    ∃ res, joinRule S t (.dict []) = .ok res ∧ ∀ p, p ∈ res ↔ BadCall "Fn::Join" (BadJoin S t) t p := by
  obtain ⟨types, hp, -⟩ := subParameterTypes_spec ht
  obtain ⟨table, hg, -⟩ := validGetAtts_spec (S := S) ht
  refine callRule_iff ht.wf fun q v hat => ?_
  suffices h : ReportsOne (q ++ [.str "Fn::Join"]) (∃ d o, v = .list [.str d, o] ∧ JoinList S t o) (joinShape S t (q ++ [.str "Fn::Join"]) v) by
    obtain ⟨l, hl, h⟩ := h
    refine ⟨l, hl, fun p' => (h p').trans ?_⟩
    unfold BadJoin
    constructor
    · rintro ⟨rfl, h⟩
      exact ⟨[], ⟨rfl, h⟩, by simp⟩
    · rintro ⟨s, ⟨rfl, h⟩, rfl⟩
      exact ⟨by simp, h⟩
  unfold joinShape
  split
  · rename_i d o
    have hv : ReportsOne (q ++ [.str "Fn::Join"]) (JoinList S t o) (joinValues S t (q ++ [.str "Fn::Join"]) o) := by
      unfold joinValues
      rw [hp, hg]
      simp only
      split
      · rename_i k v
        refine joinCallList_spec ht hc hS hg hp _ ?_ ?_
        · rintro rfl
          exact hj.refs v ⟨q, d, _, hat, .inl rfl⟩
        · rintro rfl
          exact hj.attrs v ⟨q, d, _, hat, .inl rfl⟩
      · rename_i xs
        have hx : ∀ x ∈ xs, ReportsOne (q ++ [.str "Fn::Join"]) (JoinItem S t x)
            (joinElement types (table.flatMap (fun r => r.2.map (fun a => (r.1, a)))) (q ++ [.str "Fn::Join"]) x) := by
          intro x hx
          refine joinElement_spec ht hc hS hg hp _ ?_ ?_
          · rintro v rfl
            exact hj.refs v ⟨q, d, _, hat, .inr ⟨xs, rfl, hx⟩⟩
          · rintro v rfl
            exact hj.attrs v ⟨q, d, _, hat, .inr ⟨xs, rfl, hx⟩⟩
        obtain ⟨l, hl⟩ := collectM_ok (as := xs) (f := joinElement types (table.flatMap (fun r => r.2.map (fun a => (r.1, a)))) (q ++ [.str "Fn::Join"])) (by
          intro x h
          obtain ⟨l, hl, -⟩ := hx x h
          exact ⟨l, hl⟩)
        refine ⟨l, hl, fun p' => ?_⟩
        rw [mem_collectM hl]
        constructor
        · rintro ⟨x, hm, l', hl', h⟩
          obtain ⟨l'', h1, h2⟩ := hx x hm
          rw [hl'] at h1
          cases h1
          obtain ⟨rfl, h3⟩ := (h2 p').1 h
          refine ⟨rfl, fun h => h3 ?_⟩
          generalize e : Val.list xs = w at h
          cases h with
          | list h => cases e; exact h x hm
          | ref _ => cases e
          | attr _ _ => cases e
          | call h => obtain ⟨f, _, a, rfl⟩ := h; cases e
        · rintro ⟨rfl, h⟩
          have : ∃ x ∈ xs, ¬ JoinItem S t x := by
            by_contra hc
            refine h (.list fun x hx => ?_)
            by_contra hn
            exact hc ⟨x, hx, hn⟩
          obtain ⟨x, hm, hn⟩ := this
          obtain ⟨l', h1, h2⟩ := hx x hm
          exact ⟨x, hm, l', h1, (h2 _).2 ⟨rfl, hn⟩⟩
      · rename_i h1 h2
        refine reports_bad fun h => ?_
        cases h with
        | list _ => exact h2 _ rfl
        | ref _ => exact h1 _ _ rfl
        | attr _ _ => exact h1 _ _ rfl
        | call h => obtain ⟨f, _, a, rfl⟩ := h; exact h1 _ _ rfl
    obtain ⟨l, hl, h⟩ := hv
    rw [hl]
    refine ⟨_, rfl, fun p' => ?_⟩
    rw [List.mem_append, h]
    cases d with
    | str d =>
      simp only [isText, if_true, List.not_mem_nil, false_or]
      constructor
      · rintro ⟨rfl, h⟩
        refine ⟨rfl, ?_⟩
        rintro ⟨d', o', e, h'⟩
        cases e
        exact h h'
      · rintro ⟨rfl, h⟩
        exact ⟨rfl, fun h' => h ⟨d, o, rfl, h'⟩⟩
    | _ =>
      constructor
      · rintro (h | ⟨h, -⟩)
        · refine ⟨by simpa [isText] using h, ?_⟩
          rintro ⟨d', o', e, h'⟩
          cases e
        · refine ⟨h, ?_⟩
          rintro ⟨d', o', e, h'⟩
          cases e
      · rintro ⟨rfl, -⟩
        exact .inl (by simp [isText])
  · rename_i hn
    refine reports_bad ?_
    rintro ⟨d, o, rfl, -⟩
    exact hn _ _ rfl

/-- A reference to a list or an object makes rule E1022 raise: it is looked up among the parameters (Join.py:54). -/
theorem C73_raises {S : AttrSpecs} {t : Val} (ht : PlainSections t) {x : Val} (h : JoinPart t (.dict [(.str "Ref", x)]))
    (hx : (∃ xs, x = .list xs) ∨ ∃ kvs, x = .dict kvs) : ∀ res, joinRule S t (.dict []) ≠ .ok res := by
  obtain ⟨q, d, o, hat, ho⟩ := h
  refine callRule_raises ht.wf hat ?_
  obtain ⟨types, hp, -⟩ := subParameterTypes_spec ht
  obtain ⟨table, hg, -⟩ := validGetAtts_spec (S := S) ht
  intro l hl
  unfold joinShape at hl
  simp only at hl
  split at hl
  · cases hl
  · rename_i l' hl'
    have hr : ∀ b, refIsList types x ≠ .ok b := by
      intro b hb
      rcases hx with ⟨xs, rfl⟩ | ⟨kvs, rfl⟩ <;> cases hb
    unfold joinValues at hl'
    rw [hp, hg] at hl'
    simp only at hl'
    have hm : ∀ {f : Bool → List Path} {r}, (refIsList types x).map f ≠ .ok r := by
      intro f r h
      cases hb : refIsList types x with
      | error e => rw [hb] at h; cases h
      | ok b => exact hr b hb
    rcases ho with rfl | ⟨xs, rfl, hmem⟩
    · exact hm hl'
    · obtain ⟨l'', h2⟩ := collectM_each hl' _ hmem
      exact hm h2

/-- a template with a resource `M` of type `ty`, a list `P` and an output -/
def exOut (ty : String) (v : Val) : Val := .dict [
  (.str "Resources", .dict [(.str "M", .dict [(.str "Type", .str ty)])]),
  (.str "Parameters", .dict [(.str "P", .dict [(.str "Type", .str "CommaDelimitedList")])]),
  (.str "Outputs", .dict [(.str "O", .dict [(.str "Value", v)])])]

theorem exOut_has {ty R ty' : String} {v : Val} : HasResource (exOut ty v) R ty' ↔ R = "M" ∧ ty' = ty := by
  constructor
  · rintro ⟨top, res, props, e, h1, h2, h3⟩
    simp only [exOut, Val.dict.injEq] at e
    subst e
    simp at h1
    subst h1
    simp at h2
    obtain ⟨rfl, rfl⟩ := h2
    simp at h3
    exact ⟨rfl, h3⟩
  · rintro ⟨rfl, rfl⟩
    exact ⟨_, _, _, rfl, List.mem_cons_self, List.mem_cons_self, List.mem_cons_self⟩

theorem exOut_sections {ty : String} {v : Val} (hw : v.WF) : PlainSections (exOut ty v) where
  wf := by simp [exOut, Val.WF, Val.WFDict, hw]
  object := ⟨_, rfl⟩
  section_ := by
    intro v h
    rw [exOut, at_dict_one] at h
    simp at h
    exact ⟨_, h⟩
  resources := by
    intro k v h
    obtain ⟨u, h1, h2⟩ := at_split (p := [.str "Resources"]) (q := [k]) h
    rw [exOut, at_dict_one] at h1
    simp at h1
    subst h1
    rw [at_dict_one] at h2
    simp at h2
    exact ⟨_, h2.2⟩
  parameters := by
    intro k v h
    obtain ⟨u, h1, h2⟩ := at_split (p := [.str "Parameters"]) (q := [k]) h
    rw [exOut, at_dict_one] at h1
    simp at h1
    subst h1
    rw [at_dict_one] at h2
    simp at h2
    exact ⟨_, h2.2⟩

theorem exOut_closed {ty : String} {v : Val} (h1 : startsWith ty "AWS::CloudFormation" = false) : ClosedTypes (exOut ty v) := by
  have : ∀ s, StartsAs ty ("AWS::CloudFormation" ++ s) → False := by
    intro s h
    have : startsWith ty "AWS::CloudFormation" = true := startsAs_iff.2 (List.IsPrefix.trans (by simp) h)
    rw [h1] at this
    cases this
  constructor
  · intro R ty' h hs
    obtain ⟨-, rfl⟩ := exOut_has.1 h
    exact (this "::Stack" hs).elim
  · intro R ty' h hs
    obtain ⟨-, rfl⟩ := exOut_has.1 h
    exact (this "::CustomResource" hs).elim

/-- attributes with a list -/
def listSpecs : AttrSpecs := [("A::B", some [("Arn", ⟨none, none⟩), ("End.Ports", ⟨some "List", none⟩), ("Ports", ⟨some "List", none⟩)])]

theorem listSpecs_noStar : NoStar listSpecs := by
  intro ty attrs d h hm
  unfold listSpecs at h
  simp only [dlookup] at h
  split at h
  · cases h
    simp at hm
  · cases h

/-- the call of the output -/
def exJoinOf (v : Val) : Val := exOut "A::B" (.dict [(.str "Fn::Join", .list [.str ",", v])])

theorem exJoin_at {ty : String} {v : Val} : At (exOut ty (.dict [(.str "Fn::Join", v)])) ([.str "Outputs", .str "O", .str "Value"] ++ [.str "Fn::Join"]) v :=
  .key (List.mem_cons_of_mem _ (List.mem_cons_of_mem _ List.mem_cons_self))
    (.key List.mem_cons_self (.key List.mem_cons_self (.key List.mem_cons_self .here)))

/-- An attribute named in three parts is not found, and the call is reported. -/
theorem C73_parts_violated : ¬ C73_statement := by
  intro h
  let arg : Val := .dict [(.str "Fn::GetAtt", .list [.str "M", .str "End", .str "Ports"])]
  have hw : (Val.dict [(.str "Fn::Join", .list [.str ",", arg])]).WF := by simp [arg, Val.WF, Val.WFDict, Val.WFList]
  obtain ⟨res, hr, hmem⟩ := h listSpecs (exJoinOf arg) listSpecs_noStar (exOut_sections hw) (exOut_closed (by decide))
  have hr' : joinRule listSpecs (exJoinOf arg) (.dict []) = .ok [[.str "Outputs", .str "O", .str "Value", .str "Fn::Join"]] := by rfl
  rw [hr'] at hr
  cases hr
  obtain ⟨q, v, s, hat, ⟨rfl, hb⟩, e⟩ := (hmem _).1 List.mem_cons_self
  rw [List.append_nil] at e
  have hv : v = .list [.str ",", arg] := by
    rw [← e] at hat
    exact at_det (exOut_sections hw).wf hat exJoin_at
  refine hb ⟨",", arg, hv, .attr (R := "M") (A := "End.Ports") (.inr ⟨["End", "Ports"], by simp, rfl, rfl⟩) (.inl ?_)⟩
  refine ⟨"A::B", _, ⟨some "List", none⟩, exOut_has.2 ⟨rfl, rfl⟩, ?_, rfl, by simp, rfl⟩
  unfold OpenType StartsAs
  decide

/-- A list from inside of a module is not found, and the call is reported. -/
theorem C73_module_violated : ¬ C73_statement := by
  intro h
  let arg : Val := .dict [(.str "Fn::GetAtt", .str "MQueue.Ports")]
  have hw : (Val.dict [(.str "Fn::Join", .list [.str ",", arg])]).WF := by simp [arg, Val.WF, Val.WFDict, Val.WFList]
  let t : Val := exOut "A::B::C::MODULE" (.dict [(.str "Fn::Join", .list [.str ",", arg])])
  obtain ⟨res, hr, hmem⟩ := h listSpecs t listSpecs_noStar (exOut_sections hw) (exOut_closed (by decide))
  have hr' : joinRule listSpecs t (.dict []) = .ok [[.str "Outputs", .str "O", .str "Value", .str "Fn::Join"]] := by rfl
  rw [hr'] at hr
  cases hr
  obtain ⟨q, v, s, hat, ⟨rfl, hb⟩, e⟩ := (hmem _).1 List.mem_cons_self
  rw [List.append_nil] at e
  have hv : v = .list [.str ",", arg] := by
    rw [← e] at hat
    exact at_det (exOut_sections hw).wf hat exJoin_at
  refine hb ⟨",", arg, hv, .attr (R := "MQueue") (A := "Ports") (.inl ⟨rfl, by decide⟩) (.inr (.inr ⟨?_, ?_⟩))⟩
  · exact ⟨"M", _, exOut_has.2 ⟨rfl, rfl⟩, by decide, by unfold StartsAs; decide⟩
  · intro ty hty
    have := (exOut_has.1 hty).1
    revert this
    decide

/-- the hypotheses of `C73_exact_partial` can be met, with a finding or none -/
example : joinRule listSpecs (exJoinOf (.list [.str "a", .dict [(.str "Ref", .str "P")], .dict [(.str "Fn::GetAtt", .str "M.Arn")]])) (.dict []) =
    .ok [[.str "Outputs", .str "O", .str "Value", .str "Fn::Join"]] := by rfl
example : joinRule listSpecs (exJoinOf (.dict [(.str "Fn::GetAtt", .list [.str "M", .str "Ports"])])) (.dict []) = .ok [] := by rfl

example : PlainJoins (exJoinOf (.dict [(.str "Fn::GetAtt", .list [.str "M", .str "Ports"])])) := by
  have hw : (Val.dict [(.str "Fn::Join", .list [.str ",", .dict [(.str "Fn::GetAtt", .list [.str "M", .str "Ports"])]])]).WF := by
    simp [Val.WF, Val.WFDict, Val.WFList]
  have hall := found_all (fn := "Fn::Join") (exOut_sections (ty := "A::B") hw).wf
    (P := fun v => v = .list [.str ",", .dict [(.str "Fn::GetAtt", .list [.str "M", .str "Ports"])]])
    (vs := [.list [.str ",", .dict [(.str "Fn::GetAtt", .list [.str "M", .str "Ports"])]]]) rfl (by simp)
  constructor
  · rintro x ⟨q, d, o, hat, h⟩
    cases hall q _ hat
    rcases h with h | ⟨xs, h, -⟩ <;> simp at h
  · rintro x ⟨q, d, o, hat, h⟩
    cases hall q _ hat
    rcases h with h | ⟨xs, h, -⟩
    · cases h
      exact ⟨"M", "Ports", .inr rfl, fun h => h.2 _ (exOut_has.2 ⟨rfl, rfl⟩)⟩
    · cases h

end CfnLint
