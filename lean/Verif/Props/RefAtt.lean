import Verif.Spec.RefAtt
import Verif.Lemmas.EachDeclared
import Verif.Lemmas.CheckEach
import Verif.Lemmas.SubRule
import Verif.Lemmas.Split
/-
C103: the references in the values of properties.
-/
namespace CfnLint
open Spec

/-! ### where a value stands -/

theorem leaf_path_if {v u : Val} {q : Path} (h : Leaf v q u) (prop : String) (rest : List Key) :
    isWholeRev prop (q.reverse ++ rest) = isWholeRev prop rest := by
  induction h generalizing rest with
  | here => rfl
  | left _ ih =>
    rw [List.reverse_cons, List.reverse_cons, List.append_assoc, List.append_assoc, ih]
    simp [isWholeRev]
  | right _ ih =>
    rw [List.reverse_cons, List.reverse_cons, List.append_assoc, List.append_assoc, ih]
    simp [isWholeRev]

theorem leaf_path_last {v u : Val} {q : Path} (h : Leaf v q u) : q = [] ∨ ∃ q' i, q = q' ++ [.int i] := by
  induction h with
  | here => exact .inl rfl
  | left _ ih =>
    rcases ih with rfl | ⟨q', i, rfl⟩
    · exact .inr ⟨[.str "Fn::If"], 1, rfl⟩
    · exact .inr ⟨.str "Fn::If" :: .int 1 :: q', i, rfl⟩
  | right _ ih =>
    rcases ih with rfl | ⟨q', i, rfl⟩
    · exact .inr ⟨[.str "Fn::If"], 2, rfl⟩
    · exact .inr ⟨.str "Fn::If" :: .int 2 :: q', i, rfl⟩

theorem leaf_not_element {v w : Val} {q : Path} (h : Leaf v q w) {i : Int} {r : Path} {u : Val} : ¬ Leaf v (q ++ .int i :: r) u := by
  intro h'
  induction h with
  | here =>
    generalize hp : [] ++ Key.int i :: r = p at h'
    cases h' <;> cases hp
  | @left c a b p w _ ih =>
    generalize hp : (Key.str "Fn::If" :: Key.int 1 :: p) ++ Key.int i :: r = p' at h'
    generalize hv : fnIf c a b = v' at h'
    cases h' with
    | here => cases hp
    | left h' =>
      cases hv
      simp only [List.cons_append, List.cons.injEq, true_and] at hp
      subst hp
      exact ih h'
    | right h' => simp at hp
  | @right c a b p w _ ih =>
    generalize hp : (Key.str "Fn::If" :: Key.int 2 :: p) ++ Key.int i :: r = p' at h'
    generalize hv : fnIf c a b = v' at h'
    cases h' with
    | here => cases hp
    | right h' =>
      cases hv
      simp only [List.cons_append, List.cons.injEq, true_and] at hp
      subst hp
      exact ih h'
    | left h' => simp at hp

/-- C103: a value that is chosen as a whole is told from an element of a list, through all conditions around it. -/
theorem C103_whole (base : Path) {prop : String} {v u : Val} {q : Path} (h : PropValue v q u) (hp : prop ≠ "Fn::If") :
    ∃ b, isWhole prop (base ++ .str prop :: q) = .ok b ∧ (b = true ↔ ∃ u', Leaf v q u') := by
  unfold isWhole
  obtain ⟨q', w, hl, (⟨-, rfl, rfl⟩ | ⟨xs, i, x, r, rfl, -, hr, rfl⟩)⟩ := h
  · refine ⟨true, ?_, by simpa using ⟨_, hl⟩⟩
    rw [List.reverse_append, List.reverse_cons, List.append_assoc, leaf_path_if hl]
    simp [isWholeRev]
  · refine ⟨false, ?_, ?_⟩
    · have e : (base ++ .str prop :: (q' ++ .int (i : Nat) :: r)).reverse = r.reverse ++ (.int (i : Nat) :: (q'.reverse ++ (.str prop :: base.reverse))) := by simp
      rw [e, leaf_path_if hr]
      obtain ⟨k, rest, e, hk⟩ : ∃ k rest, q'.reverse ++ (.str prop :: base.reverse) = k :: rest ∧ k ≠ .str "Fn::If" := by
        rcases leaf_path_last hl with rfl | ⟨q0, j, rfl⟩
        · exact ⟨_, _, rfl, by simpa using hp⟩
        · exact ⟨.int j, _, by simp; rfl, by simp⟩
      rw [e, isWholeRev, if_neg hk]
    · simp only [Bool.false_eq_true, false_iff]
      rintro ⟨u', h'⟩
      exact leaf_not_element hl h'

example : PropValue (fnIf (.str "C") (.list [.str "a"]) (.str "b")) [.str "Fn::If", .int 1, .int 0] (.str "a") :=
  ⟨_, _, .left (.here (by simp [IsIf]) (by simp [noValue])), .inr ⟨_, 0, _, [], rfl, rfl, .here (by simp [IsIf]) (by simp [noValue]), rfl⟩⟩

/-! ### names and attributes -/

theorem sectionOf_cases {t : Val} (ht : TwoSections t) {sec : String} (hs : sec ∈ ["Parameters", "Resources"]) :
    ∃ kvs, t.getD sec (.dict []) = .ok (.dict kvs) ∧ (Val.dict kvs).WF ∧ (∀ k e, (k, e) ∈ kvs → ∃ l, e = .dict l) ∧
      ∀ name e, SectionHas t sec name e ↔ (Key.str name, Val.dict e) ∈ kvs := by
  obtain ⟨top, rfl, h1⟩ := ht.dict
  have hw := ht.wf
  have hnd : (top.map Prod.fst).Nodup := by rw [Val.WF] at hw; exact hw.1
  cases hd : dlookup (Key.str sec) top with
  | none =>
    refine ⟨[], by simp [Val.getD, hd], by simp [Val.WF, Val.WFDict], (fun k e h => by cases h), fun name e => ?_⟩
    simp only [List.not_mem_nil, iff_false]
    rintro ⟨top', kvs, e1, h2, -⟩
    cases e1
    rw [dlookup_of_mem hnd h2] at hd
    cases hd
  | some s =>
    obtain ⟨kvs, rfl, h2⟩ := h1 sec hs s (dlookup_mem hd)
    refine ⟨kvs, by simp [Val.getD, hd], at_wf (.key (dlookup_mem hd) .here) hw, h2, fun name e => ?_⟩
    constructor
    · rintro ⟨top', kvs', e1, h3, h4⟩
      cases e1
      rw [dlookup_of_mem hnd h3] at hd
      cases hd
      exact h4
    · intro h
      exact ⟨top, kvs, rfl, dlookup_mem hd, h⟩

theorem refSection_finds {t : Val} (ht : TwoSections t) {sec : String} (hs : sec ∈ ["Parameters", "Resources"]) (types : List String) (name : String)
    (p : Path) :
    ∃ l, refSection t sec types (.str name) p = .ok l ∧
      ∀ m, m ∈ l ↔ m = p ∧ ∃ e, SectionHas t sec name e ∧ ¬ ∃ ty ∈ types, (Key.str "Type", Val.str ty) ∈ e := by
  obtain ⟨kvs, h1, h2, h3, h4⟩ := sectionOf_cases ht hs
  have hnd : (kvs.map Prod.fst).Nodup := by rw [Val.WF] at h2; exact h2.1
  unfold refSection
  rw [h1]
  simp only [sectionEntry, toKey, Option.bind_some]
  cases hd : dlookup (Key.str name) kvs with
  | none =>
    refine ⟨[], rfl, fun m => ?_⟩
    simp only [List.not_mem_nil, false_iff]
    rintro ⟨-, e, h5, -⟩
    rw [dlookup_of_mem hnd ((h4 _ _).1 h5)] at hd
    cases hd
  | some x =>
    obtain ⟨e, rfl⟩ := h3 _ _ (dlookup_mem hd)
    have hew : (e.map Prod.fst).Nodup := by
      have := at_wf (.key (dlookup_mem hd) .here) h2
      rw [Val.WF] at this
      exact this.1
    simp only [Val.getD]
    refine ⟨_, rfl, fun m => ?_⟩
    have key : (types.any (fun x => Val.str x == (dlookup (Key.str "Type") e).getD .none)) = true ↔ ∃ ty ∈ types, (Key.str "Type", Val.str ty) ∈ e := by
      rw [List.any_eq_true]
      constructor
      · rintro ⟨ty, h5, h6⟩
        refine ⟨ty, h5, ?_⟩
        cases hy : dlookup (Key.str "Type") e with
        | none => rw [hy] at h6; simp at h6
        | some y =>
          rw [hy] at h6
          have : Val.str ty = y := by simpa using h6
          subst this
          exact dlookup_mem hy
      · rintro ⟨ty, h5, h6⟩
        refine ⟨ty, h5, ?_⟩
        rw [dlookup_of_mem hew h6]
        simp
    constructor
    · intro hm
      split at hm
      · cases hm
      · rename_i hn
        exact ⟨List.mem_singleton.1 hm, e, (h4 _ _).2 (dlookup_mem hd), fun h => hn (key.2 h)⟩
    · rintro ⟨rfl, e', h5, h6⟩
      rw [dlookup_of_mem hnd ((h4 _ _).1 h5)] at hd
      cases hd
      rw [if_neg (fun h => h6 (key.1 h))]
      exact List.mem_singleton_self _

theorem refUseCheck_finds {t : Val} (ht : TwoSections t) {prop : String} {d : RefAttRow} {v u : Val} {q : Path} (hq : PropValue v q u) (hp : prop ≠ "Fn::If")
    (name : String) (base : Path) :
    Finds (refUseCheck t prop d (.str name) (base ++ Key.str prop :: q ++ [Key.str "Ref"])) (base ++ .str prop :: q)
      (fun r => r = [.str "Ref"] ∧ ∃ y, Governs d v q y ∧ BadRef t y name) := by
  obtain ⟨b, hb1, hb2⟩ := C103_whole base hq hp
  have hwhole : ∃ w, (if d.type = some "List" then isWhole prop (base ++ Key.str prop :: q ++ [Key.str "Ref"]).dropLast else .ok false) = .ok w ∧
      (w = true ↔ d.type = some "List" ∧ ∃ u, Leaf v q u) := by
    rw [List.dropLast_concat]
    split
    · rename_i hd
      exact ⟨b, hb1, by simp [hd, hb2]⟩
    · rename_i hd
      exact ⟨false, rfl, by simp [hd]⟩
  obtain ⟨w, hw1, hw2⟩ := hwhole
  have hgov : ∀ y, Governs d v q y ↔ y = if w then d.listType else d.valueType := by
    intro y
    unfold Governs
    cases w with
    | true => have := hw2.1 rfl; simp [this]
    | false =>
      have hn : ¬ (d.type = some "List" ∧ ∃ u, Leaf v q u) := fun h => by simpa using hw2.2 h
      constructor
      · rintro (⟨h1, h2, -⟩ | ⟨-, h⟩)
        · exact absurd ⟨h1, h2⟩ hn
        · exact h
      · intro h
        exact .inr ⟨hn, h⟩
  unfold refUseCheck
  rw [hw1]
  simp only
  have hr : (if w = true then d.listType.ref else d.valueType.ref) = (if w = true then d.listType else d.valueType).ref := by split <;> rfl
  rw [hr]
  cases hy : (if w = true then d.listType else d.valueType).ref with
  | none =>
    refine finds_none ?_
    rintro r ⟨-, y, hg, s, hs, -⟩
    rw [(hgov y).1 hg, hy] at hs
    cases hs
  | some s =>
    obtain ⟨l1, h1, h2⟩ := refSection_finds ht (sec := "Parameters") (by simp) s.parameters.flatten name (base ++ .str prop :: q ++ [.str "Ref"])
    obtain ⟨l2, h3, h4⟩ := refSection_finds ht (sec := "Resources") (by simp) s.resources name (base ++ .str prop :: q ++ [.str "Ref"])
    simp only [h1, h3]
    refine ⟨_, rfl, fun m => ?_⟩
    rw [List.mem_append, h2, h4, ← and_or_left]
    have key : BadRef t (if w = true then d.listType else d.valueType) name ↔
        (∃ e, SectionHas t "Parameters" name e ∧ ¬ ∃ ty ∈ s.parameters.flatten, (Key.str "Type", Val.str ty) ∈ e) ∨
          ∃ e, SectionHas t "Resources" name e ∧ ¬ ∃ ty ∈ s.resources, (Key.str "Type", Val.str ty) ∈ e := by
      have hf : ∀ e : List (Key × Val), (∃ tys ∈ s.parameters, ∃ ty ∈ tys, (Key.str "Type", Val.str ty) ∈ e) ↔
          ∃ ty ∈ s.parameters.flatten, (Key.str "Type", Val.str ty) ∈ e := by
        intro e
        simp only [List.mem_flatten]
        constructor
        · rintro ⟨tys, a, ty, b, c⟩; exact ⟨ty, ⟨tys, a, b⟩, c⟩
        · rintro ⟨ty, ⟨tys, a, b⟩, c⟩; exact ⟨tys, a, ty, b, c⟩
      unfold BadRef
      rw [hy]
      simp only [Option.some.injEq, exists_eq_left', hf]
    rw [← key]
    constructor
    · rintro ⟨rfl, h⟩
      exact ⟨_, rfl, rfl, _, (hgov _).2 rfl, h⟩
    · rintro ⟨_, rfl, rfl, y, hg, h⟩
      rw [(hgov y).1 hg] at h
      exact ⟨rfl, h⟩

theorem outputs_iff {a : String} : (splitOn '.' a.toList).head? = some "Outputs".toList ↔ a = "Outputs" ∨ ∃ s, a = "Outputs." ++ s := by
  constructor
  · intro h
    obtain ⟨w, tl, h1, h2, h3⟩ := splitOn_first '.' a.toList
    rw [h1] at h
    cases h
    rcases h3 with h3 | ⟨r, h3⟩
    · exact .inl (String.toList_injective h3)
    · refine .inr ⟨String.ofList r, String.toList_injective ?_⟩
      rw [h3, String.toList_append, String.toList_ofList]
      simp
  · rintro (rfl | ⟨s, rfl⟩)
    · decide +kernel
    · have : ("Outputs." ++ s).toList = "Outputs".toList ++ '.' :: s.toList := by simp
      rw [this, splitOn_append _ (by decide)]
      rfl

theorem map_toList_strs (E : PyText) (xs : List String) : (xs.map Val.str).map (fun a => (strOf E a).toList) = xs.map String.toList := by
  rw [List.map_map]
  rfl

theorem attParts_spec (E : PyText) {arg : Val} {r a : String} (h : AttArg arg r a) :
    ∃ x as, attParts arg = .ok (.str r, x :: as) ∧ attText E (x :: as) = a ∧ (x = .str "Outputs" ↔ a = "Outputs" ∨ ∃ s, a = "Outputs." ++ s) := by
  have dotted : ∀ a : String, ∃ x as, (splitOn '.' a.toList).map (fun x => Val.str (String.ofList x)) = x :: as ∧ attText E (x :: as) = a ∧
      (x = .str "Outputs" ↔ a = "Outputs" ∨ ∃ s, a = "Outputs." ++ s) := by
    intro a
    obtain ⟨w, tl, h1, -⟩ := splitOn_first '.' a.toList
    refine ⟨.str (String.ofList w), tl.map (fun x => Val.str (String.ofList x)), by rw [h1]; rfl, ?_, ?_⟩
    · have h2 := intercalate_splitOn a.toList
      rw [h1] at h2
      unfold attText
      have : ((Val.str (String.ofList w) :: tl.map (fun x => Val.str (String.ofList x))).map (fun a => (strOf E a).toList)) = w :: tl := by
        simp only [List.map_cons, List.map_map]
        congr 1
        · simp [strOf, pyStr]
        · conv_rhs => rw [← List.map_id tl]
          apply List.map_congr_left
          intro x _
          simp [strOf, pyStr]
      rw [this, h2, String.ofList_toList]
    · rw [← outputs_iff, h1]
      constructor
      · intro e
        injection e with e
        rw [← e]
        simp
      · intro e
        injection e with e
        rw [e]
        rfl
  cases h with
  | @text _ _ hr =>
    obtain ⟨x, as, h1, h2, h3⟩ := dotted a
    refine ⟨x, as, ?_, h2, h3⟩
    have : (r ++ "." ++ a).toList = r.toList ++ '.' :: a.toList := by simp
    simp only [attParts, this, splitOn_append _ hr, List.map_cons, h1]
    simp
  | pair =>
    obtain ⟨x, as, h1, h2, h3⟩ := dotted a
    exact ⟨x, as, by simp only [attParts, h1], h2, h3⟩
  | @parts _ xs hl hd =>
    match xs, hl, hd with
    | x :: y :: xs, _, hd =>
      refine ⟨.str x, (y :: xs).map Val.str, rfl, ?_, ?_⟩
      · unfold attText
        rw [show Val.str x :: (y :: xs).map Val.str = (x :: y :: xs).map Val.str from rfl, map_toList_strs]
      · rw [← outputs_iff, String.toList_ofList]
        have : List.intercalate ['.'] ((x :: y :: xs).map String.toList) = x.toList ++ '.' :: List.intercalate ['.'] ((y :: xs).map String.toList) := by
          simp [List.intercalate]
        rw [this, splitOn_append _ (hd x (by simp))]
        constructor
        · intro e
          cases e
          rfl
        · intro e
          injection e with e
          rw [String.toList_injective e]

theorem usedType_spec {t : Val} (ht : TwoSections t) {r : String} {e : List (Key × Val)} (he : SectionHas t "Resources" r e) :
    ∃ ty, (Key.str "Type", Val.str ty) ∈ e ∧ usedType t (.str r) = .ok (.str ty) ∧ ∀ e', SectionHas t "Resources" r e' → e' = e := by
  obtain ⟨kvs, h1, h2, h3, h4⟩ := sectionOf_cases ht (sec := "Resources") (by simp)
  have hnd : (kvs.map Prod.fst).Nodup := by rw [Val.WF] at h2; exact h2.1
  obtain ⟨ty, hty⟩ := ht.types r e he
  have hm := (h4 _ _).1 he
  have hew : (e.map Prod.fst).Nodup := by
    have := at_wf (.key hm .here) h2
    rw [Val.WF] at this
    exact this.1
  refine ⟨ty, hty, ?_, fun e' he' => ?_⟩
  · unfold usedType
    rw [h1]
    simp only [toKey, Option.bind_some, dlookup_of_mem hnd hm, Option.getD_some, Val.getD, dlookup_of_mem hew hty]
  · have := dlookup_of_mem hnd ((h4 _ _).1 he')
    rw [dlookup_of_mem hnd hm] at this
    cases this
    rfl

theorem isCustom_spec (ty : String) : ∃ b, isCustomResource (.str ty) = .ok b ∧ (b = true ↔ CustomType ty) := by
  unfold isCustomResource CustomType
  by_cases h0 : ty = ""
  · subst h0
    refine ⟨false, by decide +kernel, ?_⟩
    simp only [Bool.false_eq_true, false_iff, not_or, not_exists]
    refine ⟨by decide, fun s e => ?_⟩
    have := congrArg String.toList e
    simp at this
  · have hb : (Val.str ty).truthy = true := by simpa [Val.truthy] using h0
    rw [hb]
    simp only [Bool.not_true, Bool.false_eq_true, if_false, Val.str.injEq]
    by_cases h1 : ty = "AWS::CloudFormation::CustomResource"
    · exact ⟨true, by rw [if_pos h1], by simp [h1]⟩
    · rw [if_neg h1]
      refine ⟨_, rfl, ?_⟩
      unfold startsWith
      rw [List.isPrefixOf_iff_prefix]
      constructor
      · rintro ⟨l, hl⟩
        refine .inr ⟨String.ofList l, String.toList_injective ?_⟩
        rw [← hl]
        simp
      · rintro (h | ⟨s, rfl⟩)
        · exact absurd h h1
        · exact ⟨s.toList, by simp⟩

/-- a type has one entry among the attributes that may be used -/
def OneEntry (d : RefAttRow) : Prop :=
  ∀ y ∈ [d.valueType, d.listType], ∀ g, y.getAtt = some g → (g.map Prod.fst).Nodup

theorem attSpecCheck_iff (E : PyText) {spec : Option (List (String × List String))} (hn : ∀ g, spec = some g → (g.map Prod.fst).Nodup) (ty : String) (as : List Val)
    (p m : Path) :
    m ∈ attSpecCheck E spec (.str ty) as p ↔ m = p ∧ ∃ g, spec = some g ∧ ¬ ∃ l, (ty, l) ∈ g ∧ attText E as ∈ l := by
  unfold attSpecCheck
  cases spec with
  | none => simp
  | some g =>
    have hnd := hn g rfl
    simp only
    cases hf : g.find? (fun e => Val.str e.1 == Val.str ty) with
    | none =>
      rw [List.mem_singleton]
      constructor
      · rintro rfl
        refine ⟨rfl, g, rfl, ?_⟩
        rintro ⟨l, h1, -⟩
        have := List.find?_eq_none.1 hf _ h1
        simp at this
      · rintro ⟨rfl, -⟩
        rfl
    | some e =>
      have he : e.1 = ty := by simpa using List.find?_some hf
      have hm := List.mem_of_find?_eq_some hf
      have huniq : ∀ l, (ty, l) ∈ g → l = e.2 := by
        intro l hl
        have := List.inj_on_of_nodup_map hnd hl hm he.symm
        rw [← this]
      have key : (∃ l, (ty, l) ∈ g ∧ attText E as ∈ l) ↔ attText E as ∈ e.2 := by
        constructor
        · rintro ⟨l, h1, h2⟩
          rwa [← huniq l h1]
        · intro h
          exact ⟨e.2, by rw [← he]; exact hm, h⟩
      simp only [Option.some.injEq, exists_eq_left', key]
      split <;> simp_all

theorem attUseCheck_finds (E : PyText) {t : Val} (ht : TwoSections t) {prop : String} {d : RefAttRow} (hd : OneEntry d) {v u : Val} {q : Path} (hq : PropValue v q u)
    (hp : prop ≠ "Fn::If") {arg : Val} {r a : String} {e : List (Key × Val)} (ha : AttArg arg r a) (he : SectionHas t "Resources" r e) (base : Path) :
    Finds (attUseCheck E t prop d arg (base ++ Key.str prop :: q ++ [Key.str "Fn::GetAtt"])) (base ++ .str prop :: q)
      (fun x => x = [.str "Fn::GetAtt"] ∧ ∃ ty, (Key.str "Type", Val.str ty) ∈ e ∧ BadAtt d v q ty a) := by
  obtain ⟨b, hb1, hb2⟩ := C103_whole base hq hp
  obtain ⟨x, as, h1, h2, h3⟩ := attParts_spec E ha
  obtain ⟨ty, h4, h5, h6⟩ := usedType_spec ht he
  obtain ⟨c, h7, h8⟩ := isCustom_spec ty
  have hty : ∀ ty', (Key.str "Type", Val.str ty') ∈ e → ty' = ty := by
    intro ty' h
    obtain ⟨kvs, g1, g2, g3, g4⟩ := sectionOf_cases ht (sec := "Resources") (by simp)
    have := at_wf (.key ((g4 _ _).1 he) .here) g2
    rw [Val.WF] at this
    have h' := dlookup_of_mem this.1 h
    rw [dlookup_of_mem this.1 h4] at h'
    cases h'
    rfl
  have hfault : ∀ x, (x = [Key.str "Fn::GetAtt"] ∧ ∃ ty, (Key.str "Type", Val.str ty) ∈ e ∧ BadAtt d v q ty a) ↔ x = [Key.str "Fn::GetAtt"] ∧ BadAtt d v q ty a := by
    intro x
    constructor
    · rintro ⟨e1, ty', h9, h10⟩
      rw [hty ty' h9] at h10
      exact ⟨e1, h10⟩
    · rintro ⟨e1, h10⟩
      exact ⟨e1, ty, h4, h10⟩
  unfold attUseCheck
  rw [h1, List.dropLast_concat, hb1]
  simp only [h5, h7]
  cases c with
  | true =>
    refine finds_none ?_
    rintro r ⟨-, ty', h9, h10, -⟩
    rw [hty ty' h9] at h10
    exact h10 (h8.1 rfl)
  | false =>
    have hnc : ¬ CustomType ty := fun h => by simpa using h8.2 h
    have hwl : (b && decide (d.type = some "List")) = true ↔ d.type = some "List" ∧ ∃ u, Leaf v q u := by
      rw [Bool.and_eq_true, hb2, decide_eq_true_eq, and_comm]
    have hgov : ∀ y, Governs d v q y ↔ y = if (b && decide (d.type = some "List")) = true then d.listType else d.valueType := by
      intro y
      unfold Governs
      by_cases hw : (b && decide (d.type = some "List")) = true
      · rw [if_pos hw]
        have := hwl.1 hw
        simp [this]
      · rw [if_neg hw]
        have hn := fun h => hw (hwl.2 h)
        constructor
        · rintro (⟨g1, g2, -⟩ | ⟨-, h⟩)
          · exact absurd ⟨g1, g2⟩ hn
          · exact h
        · intro h
          exact .inr ⟨hn, h⟩
    have hstack : Val.str ty ∈ stackTypes ↔ ty = "AWS::CloudFormation::Stack" ∨ ty = "AWS::ServiceCatalog::CloudFormationProvisionedProduct" := by
      simp [stackTypes]
    have spec : ¬ StackOutput ty a → Finds (.ok (attSpecCheck E (if (b && decide (d.type = some "List")) = true then d.listType.getAtt else d.valueType.getAtt) (.str ty) (x :: as)
        (base ++ Key.str prop :: q ++ [Key.str "Fn::GetAtt"]))) (base ++ .str prop :: q)
        (fun x => x = [.str "Fn::GetAtt"] ∧ ∃ ty, (Key.str "Type", Val.str ty) ∈ e ∧ BadAtt d v q ty a) := by
      intro hns
      refine ⟨_, rfl, fun m => ?_⟩
      have hr : (if (b && decide (d.type = some "List")) = true then d.listType.getAtt else d.valueType.getAtt) =
          (if (b && decide (d.type = some "List")) = true then d.listType else d.valueType).getAtt := by split <;> rfl
      rw [hr, attSpecCheck_iff E (fun g hg => hd _ (by split <;> simp) g hg), h2]
      constructor
      · rintro ⟨rfl, g, hg, hno⟩
        exact ⟨_, rfl, (hfault _).2 ⟨rfl, hnc, .inr ⟨hns, _, g, (hgov _).2 rfl, hg, hno⟩⟩⟩
      · rintro ⟨z, rfl, hz⟩
        obtain ⟨rfl, -, (⟨h9, -⟩ | ⟨-, y, g, hy, hg, hno⟩)⟩ := (hfault _).1 hz
        · exact absurd h9 hns
        · rw [(hgov y).1 hy] at hg
          exact ⟨rfl, g, hg, hno⟩
    by_cases hs : Val.str ty ∈ stackTypes
    · rw [if_pos hs]
      by_cases ho : x = .str "Outputs"
      · rw [if_pos ho]
        have hso : StackOutput ty a := ⟨hstack.1 hs, h3.1 ho⟩
        by_cases hw : (b && decide (d.type = some "List")) = true
        · rw [if_pos hw]
          refine ⟨_, rfl, fun m => ?_⟩
          rw [List.mem_singleton]
          constructor
          · rintro rfl
            exact ⟨_, rfl, (hfault _).2 ⟨rfl, hnc, .inl ⟨hso, hwl.1 hw⟩⟩⟩
          · rintro ⟨z, rfl, hz⟩
            rw [((hfault _).1 hz).1]
        · rw [if_neg hw]
          refine finds_none ?_
          intro z hz
          obtain ⟨-, -, (⟨-, h9⟩ | ⟨h9, -⟩)⟩ := (hfault _).1 hz
          · exact hw (hwl.2 h9)
          · exact h9 hso
      · rw [if_neg ho]
        exact spec (fun h => ho (h3.2 h.2))
    · rw [if_neg hs]
      exact spec (fun h => hs (hstack.2 h.1))

/-! ### the rule -/

theorem named_refatt {α : Type} {f g : Option (Val → Path → PyM (List α))} {name : String} (hn : name ∈ functionNames) :
    Checks.named { ref := f, getAtt := g } (checkName name) = if name = "Ref" then f else if name = "Fn::GetAtt" then g else none := by
  have h1 : ∀ f ∈ functionNames, checkName f ≠ "check_value" := by decide +kernel
  have h2 : ∀ f ∈ functionNames, (checkName f = "check_ref" ↔ f = "Ref") := by decide +kernel
  have h3 : ∀ f ∈ functionNames, (checkName f = "check_get_att" ↔ f = "Fn::GetAtt") := by decide +kernel
  unfold Checks.named
  rw [if_neg (h1 name hn)]
  by_cases hr : name = "Ref"
  · rw [if_pos ((h2 name hn).2 hr), if_pos hr]
  · rw [if_neg (c := checkName name = "check_ref") (fun e => hr ((h2 name hn).1 e)), if_neg hr]
    by_cases hg : name = "Fn::GetAtt"
    · rw [if_pos ((h3 name hn).2 hg), if_pos hg]
    · rw [if_neg (c := checkName name = "check_get_att") (fun e => hg ((h3 name hn).1 e)), if_neg hg]
      simp

theorem refAttOne_finds (E : PyText) {t : Val} (ht : TwoSections t) {prop : String} {d : RefAttRow} (hd : OneEntry d) {v u : Val} {q : Path} (hq : PropValue v q u)
    (hp : prop ≠ "Fn::If") (hc : RefAttCall t u) (base : Path) :
    Finds (checkOne { ref := some (refUseCheck t prop d), getAtt := some (attUseCheck E t prop d) } u (base ++ Key.str prop :: q)) (base ++ Key.str prop :: q)
      (RefAttFault t d v q u) := by
  by_cases hn : NoCall u
  · rw [checkOne_value _ hn]
    refine finds_none ?_
    intro r hr
    cases hr with
    | ref => exact hn "Ref" _ (by decide +kernel) rfl
    | att => exact hn "Fn::GetAtt" _ (by decide +kernel) rfl
  · have : ∃ name arg, name ∈ functionNames ∧ u = .dict [(.str name, arg)] := by
      unfold NoCall at hn
      simp only [not_forall, not_not] at hn
      obtain ⟨name, arg, h1, h2⟩ := hn
      exact ⟨name, arg, h1, h2⟩
    obtain ⟨name, arg, hm, rfl⟩ := this
    rw [checkOne_call _ hm, named_refatt hm]
    split
    · rename_i hr
      subst hr
      obtain ⟨s, rfl⟩ := hc.ref arg rfl
      refine finds_congr (refUseCheck_finds ht hq hp s base) (fun r => ?_)
      constructor
      · rintro ⟨rfl, y, h1, h2⟩
        exact .ref h1 h2
      · intro h
        generalize hx : Val.dict [(Key.str "Ref", Val.str s)] = x at h
        cases h with
        | ref h1 h2 => cases hx; exact ⟨rfl, _, h1, h2⟩
        | att => simp at hx
    · split
      · rename_i hr
        subst hr
        obtain ⟨r, a, e, h1, h2⟩ := hc.att arg rfl
        refine finds_congr (attUseCheck_finds E ht hd hq hp h1 h2 base) (fun z => ?_)
        constructor
        · rintro ⟨rfl, ty, h3, h4⟩
          exact .att h1 h2 h3 h4
        · intro h
          generalize hx : Val.dict [(Key.str "Fn::GetAtt", arg)] = x at h
          cases h with
          | ref => simp at hx
          | @att arg' r' a' e' ty' g1 g2 g3 g4 =>
            simp only [Val.dict.injEq, List.cons.injEq, Prod.mk.injEq, true_and, and_true] at hx
            subst hx
            obtain ⟨x1, as1, i1, i2, -⟩ := attParts_spec E h1
            obtain ⟨x2, as2, j1, j2, -⟩ := attParts_spec E g1
            rw [i1] at j1
            simp only [Except.ok.injEq, Prod.mk.injEq, Val.str.injEq] at j1
            obtain ⟨rfl, j1⟩ := j1
            rw [j1, j2] at i2
            subst i2
            obtain ⟨_, _, _, huniq⟩ := usedType_spec ht h2
            rw [huniq e' g2] at g3
            exact ⟨rfl, ty', g3, g4⟩
      · rename_i h1 h2
        refine finds_none ?_
        intro r hr
        cases hr with
        | ref => exact h1 rfl
        | att => exact h2 rfl

/-- C103: where the resources whose attributes are used are those of the template, the findings are the references that the specification does not allow, at their places. -/
theorem C103_exact_partial (E : PyText) (n : Nat) {t : Val} (ht : TwoSections t) {rows : List (String × RefAttRow)} {kvs : List (Key × Val)} (path : Path)
    (hrows : (rows.map Prod.fst).Nodup) (hone : ∀ prop d, (prop, d) ∈ rows → OneEntry d ∧ prop ≠ "Fn::If") (hw : (Val.dict kvs).WF)
    (ho : ∀ q u, Leaf (.dict kvs) q u → ∃ l, u = .dict l) (hnull : ∀ q l, Leaf (.dict kvs) q (.dict l) → NoNullProps rows l)
    (hcall : ∀ o l prop d v q u, Leaf (.dict kvs) o (.dict l) → (prop, d) ∈ rows → (Key.str prop, v) ∈ l → PropValue v q u → RefAttCall t u) :
    Finds (refAttRule E t (n + 2) rows (.dict kvs) path) path (RefAttFaults t rows (.dict kvs)) := by
  refine finds_congr (eachDeclared_dict (F := fun l prop d y => d.hasValue = true ∧ ∃ v q u r, (Key.str prop, v) ∈ l ∧ PropValue v q u ∧ RefAttFault t d v q u r ∧
    y = .str prop :: (q ++ r)) hw ho ?_) ?_
  · intro o l s d v hl hv hne hr
    have hr' := dlookup_mem hr
    split
    · rename_i hval
      obtain ⟨h0, hnl⟩ := hnull o l hl s d v hr' hv
      have hnd : (l.map Prod.fst).Nodup := (at_wf (leaf_at hl) hw).1
      have hd := dlookup_filter_ne hnd hv hne
      obtain ⟨vs, hg, -, hm⟩ := getValues_spec (n := n) (path := []) h0 hnl
      have hm' : ∀ p w, (p, w) ∈ vs ↔ PropValue v p w := fun p w => by rw [hm]; simp
      obtain ⟨res, h1, h2⟩ := checkLoop_each (h := { ref := some (refUseCheck t s d), getAtt := some (attUseCheck E t s d) }) (path := path ++ o ++ [.str s]) (r := vs) (acc := [])
        (P := fun u p m => ∃ q, p = path ++ o ++ [.str s] ++ q ∧ PropValue v q u ∧ ∃ r, m = p ++ r ∧ RefAttFault t d v q u r) (by
          intro p u hp
          have hpv := (hm' p u).1 hp
          obtain ⟨l', e1, e2⟩ := refAttOne_finds E ht (hone s d hr').1 hpv (hone s d hr').2 (hcall o l s d v p u hl hr' hv hpv) (path ++ o)
          refine ⟨l', by rw [← e1]; simp, fun m => ?_⟩
          rw [e2]
          constructor
          · rintro ⟨r, rfl, h3⟩
            exact ⟨p, rfl, hpv, r, by simp, h3⟩
          · rintro ⟨q, e3, h4, r, rfl, h3⟩
            have := List.append_cancel_left e3
            subst this
            exact ⟨r, by simp, h3⟩)
      refine ⟨res, by simp only [checkValue, withoutNoValue, hd, Option.getD_some, hg, h1], fun m => ?_⟩
      rw [h2]
      constructor
      · rintro (h3 | ⟨p, u, h3, q, e3, h4, r, rfl, h5⟩)
        · cases h3
        · have := List.append_cancel_left e3
          subst this
          exact ⟨.str s :: (p ++ r), by simp, hval, v, p, u, r, hv, h4, h5, rfl⟩
      · rintro ⟨_, rfl, -, v', q, u, r, hv', h4, h5, rfl⟩
        have hvv : v' = v := by
          have := dlookup_of_mem hnd hv'
          rw [dlookup_of_mem hnd hv] at this
          cases this
          rfl
        subst hvv
        exact .inr ⟨q, u, (hm' q u).2 h4, q, rfl, h4, r, by simp, h5⟩
    · rename_i hval
      exact finds_none (fun r h => hval h.1)
  · intro x
    constructor
    · rintro ⟨o, l, s, d, v, y, hl, -, -, hr, ⟨hval, v', q, u, r, h1, h2, h3, rfl⟩, rfl⟩
      exact ⟨o, l, s, d, v', q, u, r, hl, dlookup_mem hr, hval, h1, h2, h3, rfl⟩
    · rintro ⟨o, l, s, d, v, q, u, r, hl, hr, hval, h1, h2, h3, rfl⟩
      refine ⟨o, l, s, d, v, _, hl, h1, ?_, dlookup_of_mem hrows hr, ⟨hval, v, q, u, r, h1, h2, h3, rfl⟩, rfl⟩
      rintro rfl
      obtain ⟨q1, u1, hl1, -⟩ := h2
      exact ((leaf_of_notIf (by simp [IsIf, noValue])).1 hl1).2.2 rfl

/-! ### examples -/

def exRoleType : RefAttType :=
  { ref := some { parameters := [["String"]], resources := ["AWS::IAM::Role"] }, getAtt := some [("AWS::IAM::Role", ["Arn"]), ("AWS::CloudFormation::CustomResource", ["Arn"])] }

def exRoleRows : List (String × RefAttRow) := [("Role", { valueType := exRoleType }), ("Roles", { type := some "List", valueType := exRoleType, listType := { ref := some ⟨[["List"]], []⟩ } })]

def exRoleTemplate : Val :=
  .dict [(.str "Parameters", .dict [(.str "P", .dict [(.str "Type", .str "String")]), (.str "L", .dict [(.str "Type", .str "List")])]),
    (.str "Resources", .dict [(.str "A", .dict [(.str "Type", .str "AWS::IAM::Role")]), (.str "S", .dict [(.str "Type", .str "AWS::CloudFormation::Stack")]),
      (.str "M", .dict [(.str "Type", .str "My::Own::Thing::MODULE")])])]

def exRoleUse : List (Key × Val) :=
  [(.str "Role", .dict [(.str "Fn::GetAtt", .list [.str "A", .str "RoleId"])]), (.str "Roles", .list [.dict [(.str "Ref", .str "L")], .dict [(.str "Ref", .str "A")]])]

theorem exRole_sections : TwoSections exRoleTemplate := by
  refine ⟨by simp [Val.WF, Val.WFDict, exRoleTemplate], ⟨_, rfl, ?_⟩, ?_⟩
  · intro sec hs s hm
    simp only [List.mem_cons, List.not_mem_nil, or_false] at hs
    rcases hs with rfl | rfl
    · simp only [List.mem_cons, Prod.mk.injEq, List.not_mem_nil, or_false, Key.str.injEq] at hm
      rcases hm with ⟨-, rfl⟩ | ⟨h, -⟩
      · refine ⟨_, rfl, fun k e he => ?_⟩
        simp only [List.mem_cons, Prod.mk.injEq, List.not_mem_nil, or_false] at he
        rcases he with ⟨-, rfl⟩ | ⟨-, rfl⟩ <;> exact ⟨_, rfl⟩
      · exact absurd h (by decide)
    · simp only [List.mem_cons, Prod.mk.injEq, List.not_mem_nil, or_false, Key.str.injEq] at hm
      rcases hm with ⟨h, -⟩ | ⟨-, rfl⟩
      · exact absurd h (by decide)
      · refine ⟨_, rfl, fun k e he => ?_⟩
        simp only [List.mem_cons, Prod.mk.injEq, List.not_mem_nil, or_false] at he
        rcases he with ⟨-, rfl⟩ | ⟨-, rfl⟩ | ⟨-, rfl⟩ <;> exact ⟨_, rfl⟩
  · rintro name e ⟨top, kvs, h1, h2, h3⟩
    cases h1
    simp only [List.mem_cons, Prod.mk.injEq, List.not_mem_nil, or_false, Key.str.injEq, Val.dict.injEq] at h2
    rcases h2 with ⟨h, -⟩ | ⟨-, rfl⟩
    · exact absurd h (by decide)
    · simp only [List.mem_cons, Prod.mk.injEq, List.not_mem_nil, or_false, Val.dict.injEq] at h3
      rcases h3 with ⟨-, rfl⟩ | ⟨-, rfl⟩ | ⟨-, rfl⟩ <;> exact ⟨_, List.mem_cons_self⟩

/-- C103, in full: the resource whose attribute is used need not be in the template, as that of a module is not. -/
def C103_statement : Prop :=
  ∀ (E : PyText) (n : Nat) (t : Val), TwoSections t → ∀ (rows : List (String × RefAttRow)) (kvs : List (Key × Val)) (path : Path),
    (rows.map Prod.fst).Nodup → (∀ prop d, (prop, d) ∈ rows → OneEntry d ∧ prop ≠ "Fn::If") → (Val.dict kvs).WF →
    (∀ q u, Leaf (.dict kvs) q u → ∃ l, u = .dict l) → (∀ q l, Leaf (.dict kvs) q (.dict l) → NoNullProps rows l) →
    (∀ o l prop d v q u, Leaf (.dict kvs) o (.dict l) → (prop, d) ∈ rows → (Key.str prop, v) ∈ l → PropValue v q u →
      (∀ a, u = .dict [(.str "Ref", a)] → ∃ name, a = .str name) ∧ ∀ arg, u = .dict [(.str "Fn::GetAtt", arg)] → ∃ r a, AttArg arg r a) →
    Finds (refAttRule E t (n + 2) rows (.dict kvs) path) path (RefAttFaults t rows (.dict kvs))

def exModuleUse : List (Key × Val) := [(.str "Role", .dict [(.str "Fn::GetAtt", .list [.str "MInner", .str "Arn"])])]

/-- C103: the attribute of a resource that a module makes is reported, whatever its type is. -/
theorem C103_module_reported (E : PyText) (n : Nat) :
    refAttRule E exRoleTemplate (n + 2) exRoleRows (.dict exModuleUse) [] = .ok [[.str "Role", .str "Fn::GetAtt"]] := by
  rfl

theorem exRole_rows : (exRoleRows.map Prod.fst).Nodup ∧ ∀ prop d, (prop, d) ∈ exRoleRows → OneEntry d ∧ prop ≠ "Fn::If" := by
  refine ⟨by decide, fun prop d h => ?_⟩
  simp only [exRoleRows, List.mem_cons, List.not_mem_nil, or_false, Prod.mk.injEq] at h
  rcases h with ⟨rfl, rfl⟩ | ⟨rfl, rfl⟩ <;>
  · refine ⟨?_, by decide⟩
    intro y hy g hg
    simp only [List.mem_cons, List.not_mem_nil, or_false] at hy
    rcases hy with rfl | rfl <;> cases hg
    decide

theorem exModule_value {o q : Path} {l : List (Key × Val)} {prop : String} {v u : Val} (hl : Leaf (.dict exModuleUse) o (.dict l)) (hv : (Key.str prop, v) ∈ l)
    (hu : PropValue v q u) : u = .dict [(.str "Fn::GetAtt", .list [.str "MInner", .str "Arn"])] := by
  have := ((leaf_of_notIf (by simp [IsIf, exModuleUse])).1 hl).2.1
  cases this
  simp only [exModuleUse, List.mem_cons, List.not_mem_nil, or_false, Prod.mk.injEq] at hv
  obtain ⟨-, rfl⟩ := hv
  obtain ⟨q', u', h1, h2⟩ := hu
  have h1 := ((leaf_of_notIf (by simp [IsIf])).1 h1).2.1
  subst h1
  rcases h2 with ⟨-, -, rfl⟩ | ⟨xs, i, x, r, h, -⟩
  · rfl
  · cases h

def exNoText : PyText := ⟨fun _ => "", fun _ _ => true, fun _ => none, fun _ _ => true⟩

/-- C103: what a module makes is not known, and yet its use is reported. -/
theorem C103_violated : ¬ C103_statement := by
  intro h
  obtain ⟨l, h1, h2⟩ := h exNoText 0 exRoleTemplate exRole_sections exRoleRows exModuleUse [] exRole_rows.1 exRole_rows.2
    (by simp [Val.WF, Val.WFDict, Val.WFList, exModuleUse])
    (fun q u h => ⟨_, ((leaf_of_notIf (by simp [IsIf, exModuleUse])).1 h).2.1⟩)
    (fun q l h => by
      have := ((leaf_of_notIf (by simp [IsIf, exModuleUse])).1 h).2.1
      cases this
      intro prop d v _ hv
      simp only [exModuleUse, List.mem_cons, List.not_mem_nil, or_false, Prod.mk.injEq] at hv
      obtain ⟨-, rfl⟩ := hv
      exact ⟨by simp, fun q h => by cases ((leaf_of_notIf (by simp [IsIf])).1 h).2.1⟩)
    (fun o l prop d v q u hl _ hv hu => by
      rw [exModule_value hl hv hu]
      refine ⟨fun a h => by simp at h, fun arg h => ?_⟩
      cases h
      exact ⟨_, _, .pair⟩)
  rw [C103_module_reported] at h1
  cases h1
  obtain ⟨x, -, o, l, prop, d, v, q, u, r, hl, -, -, hv, hu, hf, -⟩ := (h2 _).1 List.mem_cons_self
  rw [exModule_value hl hv hu] at hf
  generalize hx : Val.dict [(Key.str "Fn::GetAtt", Val.list [.str "MInner", .str "Arn"])] = x at hf
  cases hf with
  | ref => simp at hx
  | @att arg r a e ty g1 g2 g3 g4 =>
    cases hx
    obtain ⟨x, as, h3, -⟩ := attParts_spec exNoText g1
    have h4 : r = "MInner" := by
      simp only [attParts, Except.ok.injEq, Prod.mk.injEq, Val.str.injEq] at h3
      exact h3.1.symm
    subst h4
    obtain ⟨top, kvs, h5, h6, h7⟩ := g2
    cases h5
    simp only [List.mem_cons, Prod.mk.injEq, List.not_mem_nil, or_false, Key.str.injEq, Val.dict.injEq] at h6
    rcases h6 with ⟨h, -⟩ | ⟨-, rfl⟩
    · exact absurd h (by decide)
    · simp at h7

/-- C103: an attribute that is given by a `Ref`, which CloudFormation permits, stops the program. -/
theorem C103_ref_attribute_raises (E : PyText) (t : Val) (prop : String) (d : RefAttRow) (r : Val) (kvs : List (Key × Val)) (path : Path) :
    attUseCheck E t prop d (.list [r, .dict kvs]) path = .error (attrErr (.dict kvs) "split") := rfl

/-- C103: the attribute of a nested stack that is not named stops the program. -/
theorem C103_stack_raises (E : PyText) : attUseCheck E exRoleTemplate "Role" { valueType := exRoleType } (.str "S") [.str "Role", .str "Fn::GetAtt"] =
    .error (.indexError "list index out of range") := rfl

/-- values that meet the hypotheses -/
theorem exRole_value {o q : Path} {l : List (Key × Val)} {prop : String} {v u : Val} (hl : Leaf (.dict exRoleUse) o (.dict l)) (hv : (Key.str prop, v) ∈ l)
    (hu : PropValue v q u) : u = .dict [(.str "Fn::GetAtt", .list [.str "A", .str "RoleId"])] ∨ u = .dict [(.str "Ref", .str "L")] ∨ u = .dict [(.str "Ref", .str "A")] := by
  have := ((leaf_of_notIf (by simp [IsIf, exRoleUse])).1 hl).2.1
  cases this
  simp only [exRoleUse, List.mem_cons, List.not_mem_nil, or_false, Prod.mk.injEq] at hv
  obtain ⟨q', u', h1, h2⟩ := hu
  rcases hv with ⟨-, rfl⟩ | ⟨-, rfl⟩
  · have h1 := ((leaf_of_notIf (by simp [IsIf])).1 h1).2.1
    subst h1
    rcases h2 with ⟨-, -, rfl⟩ | ⟨xs, i, x, r, h, -⟩
    · exact .inl rfl
    · cases h
  · have h1 := ((leaf_of_notIf (by simp [IsIf])).1 h1).2.1
    subst h1
    rcases h2 with ⟨h, -, -⟩ | ⟨xs, i, x, r, h, hx, hl, -⟩
    · exact absurd rfl (h _)
    · cases h
      match i, hx with
      | 0, hx =>
        cases hx
        exact .inr (.inl ((leaf_of_notIf (by simp [IsIf])).1 hl).2.1)
      | 1, hx =>
        cases hx
        exact .inr (.inr ((leaf_of_notIf (by simp [IsIf])).1 hl).2.1)

example (E : PyText) : Finds (refAttRule E exRoleTemplate 2 exRoleRows (.dict exRoleUse) []) [] (RefAttFaults exRoleTemplate exRoleRows (.dict exRoleUse)) := by
  refine C103_exact_partial E 0 exRole_sections [] exRole_rows.1 exRole_rows.2 (by simp [Val.WF, Val.WFDict, Val.WFList, exRoleUse])
    (fun q u h => ⟨_, ((leaf_of_notIf (by simp [IsIf, exRoleUse])).1 h).2.1⟩) ?_ ?_
  · intro q l h
    have := ((leaf_of_notIf (by simp [IsIf, exRoleUse])).1 h).2.1
    cases this
    intro prop d v _ hv
    simp only [exRoleUse, List.mem_cons, List.not_mem_nil, or_false, Prod.mk.injEq] at hv
    rcases hv with ⟨-, rfl⟩ | ⟨-, rfl⟩ <;> exact ⟨by simp, fun q h => by cases ((leaf_of_notIf (by simp [IsIf])).1 h).2.1⟩
  · intro o l prop d v q u hl _ hv hu
    rcases exRole_value hl hv hu with rfl | rfl | rfl
    · refine ⟨fun a h => by simp at h, fun arg h => ?_⟩
      cases h
      exact ⟨_, _, _, .pair, _, _, rfl, List.mem_cons_of_mem _ List.mem_cons_self, List.mem_cons_self⟩
    · exact ⟨fun a h => by cases h; exact ⟨_, rfl⟩, fun a h => by simp at h⟩
    · exact ⟨fun a h => by cases h; exact ⟨_, rfl⟩, fun a h => by simp at h⟩

/-- what is reported: the attribute that may not be used, and the parameter that is a list -/
example : refAttRule exNoText exRoleTemplate 2 exRoleRows (.dict exRoleUse) [] = .ok [[.str "Role", .str "Fn::GetAtt"], [.str "Roles", .int 0, .str "Ref"]] := by
  decide +kernel

/-- the same parameter as the whole list is not reported -/
example (E : PyText) : refAttRule E exRoleTemplate 2 exRoleRows (.dict [(.str "Roles", .dict [(.str "Ref", .str "L")])]) [] = .ok [] := rfl

/-- C103: a section written as a list or a text: a name that is not in it is passed over, one that is in it ends the rule with the
error of a template node. -/
theorem C103_section_kinds (s : String) :
    (∀ xs, (.str s ∉ xs → sectionEntry (.list xs) (.str s) = .ok none) ∧
      (.str s ∈ xs → ∃ m, sectionEntry (.list xs) (.str s) = .error (.templateAttributeError m))) ∧
    (∀ x : String, (¬ s.toList <:+: x.toList → sectionEntry (.str x) (.str s) = .ok none) ∧
      (s.toList <:+: x.toList → ∃ m, sectionEntry (.str x) (.str s) = .error (.templateAttributeError m))) := by
  refine ⟨fun xs => ⟨fun hn => ?_, fun hn => ?_⟩, fun x => ⟨fun hn => ?_, fun hn => ?_⟩⟩
  all_goals simp only [sectionEntry]
  · rw [if_neg hn]
  · rw [if_pos hn]; exact ⟨_, rfl⟩
  · rw [if_neg hn]
  · rw [if_pos hn]; exact ⟨_, rfl⟩

example : sectionEntry (.list [.str "A"]) (.str "B") = .ok none := by decide

end CfnLint
