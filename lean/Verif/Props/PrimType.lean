import Verif.Lemmas.Declared
import Verif.Props.FnShape
import Mathlib.Tactic.Tauto
/-
Property C80: values of properties have the primitive types the specification declares.
-/
namespace CfnLint
open Spec

variable {floatText : String → Bool}

theorem hasPrim_iff {ty : String} {v : Val} : HasPrim ty v ↔ (ty = "String" ∧ ∃ s, v = .str s) ∨ (ty = "Boolean" ∧ ∃ b, v = .bool b) ∨
    (ty = "Integer" ∧ ∃ i, v = .int i) ∨ (ty = "Long" ∧ ∃ i, v = .int i) ∨ (ty = "Double" ∧ ((∃ i, v = .int i) ∨ ∃ r, v = .flt r)) ∨
    (ty ∉ ["String", "Boolean", "Integer", "Long", "Double"] ∧ ∀ xs, v ≠ .list xs) := by
  constructor
  · rintro (_ | _ | _ | _ | _ | _ | ⟨h1, h2⟩)
    case other => exact .inr (.inr (.inr (.inr (.inr ⟨h1, h2⟩))))
    all_goals simp
  · rintro (⟨rfl, s, rfl⟩ | ⟨rfl, s, rfl⟩ | ⟨rfl, s, rfl⟩ | ⟨rfl, s, rfl⟩ | ⟨rfl, ⟨s, rfl⟩ | ⟨s, rfl⟩⟩ | ⟨h1, h2⟩)
    · exact .text
    · exact .truth
    · exact .int
    · exact .long
    · exact .whole
    · exact .double
    · exact .other h1 h2

theorem readsAs_iff {ty : String} {v : Val} : ReadsAs floatText ty v ↔ ty = "String" ∨
    (ty = "Boolean" ∧ ∃ s, v = .str s ∧ s ∈ ["True", "true", "False", "false"]) ∨
    (ty = "Integer" ∧ ∃ s, v = .str s ∧ WholeText s) ∨ (ty = "Long" ∧ ∃ s, v = .str s ∧ WholeText s) ∨
    (ty = "Double" ∧ ∃ s, v = .str s ∧ floatText s = true) := by
  constructor
  · intro h
    cases h with
    | text => exact .inl rfl
    | truth h => exact .inr (.inl ⟨rfl, _, rfl, h⟩)
    | int h => exact .inr (.inr (.inl ⟨rfl, _, rfl, h⟩))
    | long h => exact .inr (.inr (.inr (.inl ⟨rfl, _, rfl, h⟩)))
    | double h => exact .inr (.inr (.inr (.inr ⟨rfl, _, rfl, h⟩)))
  · rintro (rfl | ⟨rfl, s, rfl, h⟩ | ⟨rfl, s, rfl, h⟩ | ⟨rfl, s, rfl, h⟩ | ⟨rfl, s, rfl, h⟩)
    · exact .text
    · exact .truth h
    · exact .int h
    · exact .long h
    · exact .double h

/-- **C80** The check of one value reports it exactly when it does not fit, apart from truth values in place of numbers and fractions read
as whole numbers. -/
theorem C80_value_partial {ty : String} {strict : Bool} {v : Val} (hd : ∀ kvs, v ≠ .dict kvs) (hn : PlainNum strict ty v) (p m : Path) :
    m ∈ primTypeCheck floatText ty strict v p ↔ m = p ∧ ¬ Fits floatText strict ty v := by
  unfold Fits
  rw [hasPrim_iff, readsAs_iff]
  unfold primTypeCheck
  have hdv : isDictVal v = false := by
    cases v <;> first | rfl | exact absurd rfl (hd _)
  rw [if_neg (by simp [hdv])]
  by_cases h1 : ty = "String"
  · subst h1
    cases v <;> cases strict <;> simp [Val.isStr, looseCheck]
  by_cases h2 : ty = "Boolean"
  · subst h2
    cases v <;> cases strict <;> simp [isBoolVal, looseCheck, and_comm]
  by_cases h3 : ty = "Double"
  · subst h3
    have hb := (hn (by simp)).1
    cases v <;> cases strict <;> simp [isBoolVal, isFltVal, isIntVal, floatReads, looseCheck] at hb ⊢
    rename_i s
    by_cases h : floatText s = true <;> simp [h]
  by_cases h4 : ty = "Integer"
  · subst h4
    obtain ⟨hb, hf⟩ := hn (by simp)
    cases v <;> cases strict <;> simp [isBoolVal, isIntVal, intReads, looseCheck] at hb hf ⊢
    rename_i s
    rw [← isIntText_iff]
    by_cases h : isIntText s = true <;> simp [h]
  by_cases h5 : ty = "Long"
  · subst h5
    have hb := (hn (by simp)).1
    cases v <;> cases strict <;> simp [isBoolVal, isFltVal, isIntVal, intReads, looseCheck] at hb ⊢
    rename_i s
    rw [← isIntText_iff]
    by_cases h : isIntText s = true <;> simp [h]
  · rw [if_neg h1, if_neg h2, if_neg h3, if_neg h4, if_neg h5]
    cases v <;> simp [isListVal, h1, h2, h3, h4, h5]

theorem declaredPrim_iff {d : PropRow} {ty : String} (h0 : ty ≠ "") : declaredPrim d = some ty ↔ PrimOf d ty := by
  unfold declaredPrim PrimOf
  cases h : d.prim with
  | none => simp [h0]
  | some t =>
    by_cases ht : t = ""
    · subst ht
      simp [h0, h0.symm]
    · simp [h0, ht]

theorem strictFor_iff (strict : Bool) (specType prop : String) : IsStrict strict specType prop (strictFor strict specType prop) := by
  unfold IsStrict LooseProp strictFor
  by_cases h1 : specType = "AWS::CloudFormation::Stack"
  · subst h1
    have : dlookup "AWS::CloudFormation::Stack" strictExceptions = some ["Parameters"] := by decide +kernel
    rw [this]
    by_cases h : prop = "Parameters" <;> simp [h]
  by_cases h2 : specType = "AWS::Lambda::Function.Environment"
  · subst h2
    have : dlookup "AWS::Lambda::Function.Environment" strictExceptions = some ["Variables"] := by decide +kernel
    rw [this]
    by_cases h : prop = "Variables" <;> simp [h]
  · have : dlookup specType strictExceptions = none := by
      simp [dlookup, strictExceptions, Ne.symm h1, Ne.symm h2]
    rw [this]
    simp [h1, h2]

theorem isStrict_det {strict : Bool} {specType prop : String} {b b' : Bool} (h : IsStrict strict specType prop b)
    (h' : IsStrict strict specType prop b') : b = b' := by
  unfold IsStrict at h h'
  rw [Bool.eq_iff_iff, h, h']

theorem primOf_det {d : PropRow} {ty ty' : String} (h : PrimOf d ty) (h' : PrimOf d ty') : ty = ty' := by
  have h1 := (declaredPrim_iff h.1).2 h
  have h2 := (declaredPrim_iff h'.1).2 h'
  rw [h1] at h2
  exact Option.some.inj h2

/-- the values are plain numbers, in maps as well -/
def PlainValue (strict : Bool) (ty : String) (u : Val) : Prop :=
  PlainNum strict ty u ∧ ∀ l k w, u = .dict l → (k, w) ∈ l → PlainNum strict ty w

theorem primValue_iff {ty : String} {strict : Bool} {d : PropRow} {u : Val} (hp : PlainValue strict ty u) (p m : Path) :
    m ∈ primValueCheck floatText ty (if d.type = some "List" ∨ d.type = some "Map" then d.type else none) strict u p ↔
      ∃ r, m = p ++ r ∧ TypeFault floatText strict d ty u r := by
  unfold primValueCheck
  by_cases hm : d.type = some "Map"
  · rw [if_pos (by simp [hm])]
    cases u with
    | dict kvs =>
      simp only [List.mem_flatMap]
      constructor
      · rintro ⟨⟨k, w⟩, hkw, hmem⟩
        simp only at hmem
        by_cases hd : isDictVal w = true
        · rw [if_pos hd] at hmem
          cases hmem
        · rw [if_neg hd] at hmem
          have hw : ∀ l, w ≠ .dict l := by
            rintro l rfl
            exact hd rfl
          obtain ⟨rfl, hf⟩ := (C80_value_partial hw (hp.2 _ _ _ rfl hkw) _ _).1 hmem
          exact ⟨[k], rfl, .entry hm hkw hw hf⟩
      · rintro ⟨r, rfl, hr⟩
        cases hr with
        | value h => exact absurd hm h
        | @entry _ k w _ hkw hw hf =>
          refine ⟨(k, w), hkw, ?_⟩
          have hd : ¬ isDictVal w = true := by
            cases w <;> first | exact absurd rfl (hw _) | simp [isDictVal]
          simp only
          rw [if_neg hd]
          exact (C80_value_partial hw (hp.2 _ _ _ rfl hkw) _ _).2 ⟨rfl, hf⟩
    | _ =>
      simp only [List.not_mem_nil, false_iff]
      rintro ⟨r, -, hr⟩
      cases hr with
      | value h => exact absurd hm h
  · rw [if_neg (by split <;> simp [hm])]
    by_cases hd : isDictVal u = true
    · rw [if_pos hd]
      simp only [List.not_mem_nil, false_iff]
      rintro ⟨r, -, hr⟩
      cases hr with
      | value _ h =>
        cases u <;> first | exact h _ rfl | cases hd
      | entry h => exact absurd h hm
    · rw [if_neg hd]
      have hu : ∀ l, u ≠ .dict l := by
        rintro l rfl
        exact hd rfl
      rw [C80_value_partial hu hp.1]
      constructor
      · rintro ⟨rfl, hf⟩
        exact ⟨[], by simp, .value hm hu hf⟩
      · rintro ⟨r, rfl, hr⟩
        cases hr with
        | value _ _ hf => exact ⟨by simp, hf⟩
        | entry h => exact absurd h hm

/-- **C80** in full: what is reported for the properties of a resource, or of an object inside it, are the faults of the objects they may
be, at their places. -/
def C80_statement : Prop := ∀ (floatText : String → Bool) (strict : Bool) (specType : String) (rows : List (String × PropRow))
  (kvs : List (Key × Val)) (path : Path), (rows.map Prod.fst).Nodup → (Val.dict kvs).WF → NoNulls (.dict kvs) →
  ∃ n, Finds (primRule floatText strict n specType rows (.dict kvs) path) path
    (fun s => ∃ q l r, Leaf (.dict kvs) q (.dict l) ∧ PropTypeFault floatText strict specType rows l r ∧ s = q ++ r)

/-- **C80** For an object that does not depend on a condition the check ends normally and reports exactly the values, and the entries of
maps, that do not have the declared primitive type or, where this is enough, cannot be read as such, each at its place. -/
theorem C80_reports_partial {strict : Bool} {specType : String} {rows : List (String × PropRow)} {kvs : List (Key × Val)} {path : Path}
    (hrows : (rows.map Prod.fst).Nodup) (hw : (Val.dict kvs).WF)
    (hnull : ∀ prop d v, (prop, d) ∈ rows → (.str prop, v) ∈ kvs → v ≠ .none ∧ ∀ q, ¬ Leaf v q .none)
    (hplain : ∀ prop d ty b v q u, (prop, d) ∈ rows → PrimOf d ty → IsStrict strict specType prop b → (.str prop, v) ∈ kvs →
      PropValue v q u → PlainValue b ty u) (n : Nat) :
    Finds (primRule floatText strict (n + 2) specType rows (.dict kvs) path) path (PropTypeFault floatText strict specType rows kvs) := by
  have hnd : (kvs.map Prod.fst).Nodup := hw.1
  obtain ⟨res, h1, h2⟩ := declaredIn_dict (rows := rows) (kvs := kvs) (f := fun prop d =>
    match declaredPrim d with
    | some ty =>
      if ty = "" then .ok []
      else checkValue (n + 2) { value := some (fun v p =>
        .ok (primValueCheck floatText ty (if d.type = some "List" ∨ d.type = some "Map" then d.type else none) (strictFor strict specType prop) v p)) }
        (.dict kvs) prop path
    | none => .ok [])
    (P := fun prop d m => ∃ ty v q u r, PrimOf d ty ∧ (Key.str prop, v) ∈ kvs ∧ PropValue v q u ∧ Known u ∧
      TypeFault floatText (strictFor strict specType prop) d ty u r ∧ m = path ++ (.str prop :: (q ++ r))) (by
    intro prop d v hv hl
    have hmem := dlookup_mem hl
    obtain ⟨h0, hnl⟩ := hnull prop d v hmem hv
    have none_of : ∀ ty, declaredPrim d ≠ some ty → ty ≠ "" → ¬ PrimOf d ty := fun ty h h0 hp => h ((declaredPrim_iff h0).2 hp)
    cases hd : declaredPrim d with
    | none =>
      refine ⟨[], rfl, fun m => ⟨fun h => (by cases h), ?_⟩⟩
      rintro ⟨ty, _, _, _, _, hp, _⟩
      exact absurd hp (none_of ty (by rw [hd]; simp) hp.1)
    | some ty =>
      by_cases he : ty = ""
      · simp only
        rw [if_pos he]
        refine ⟨[], rfl, fun m => ⟨fun h => (by cases h), ?_⟩⟩
        rintro ⟨ty', _, _, _, _, hp, _⟩
        exact absurd hp (none_of ty' (by rw [hd, he]; simpa using hp.1.symm) hp.1)
      · simp only
        rw [if_neg he]
        have hp := (declaredPrim_iff he).1 hd
        obtain ⟨l, h3, h4⟩ := checkValue_finds (path := path) (dlookup_of_mem hnd hv) h0 hnl n
          (g := primValueCheck floatText ty (if d.type = some "List" ∨ d.type = some "Map" then d.type else none) (strictFor strict specType prop))
          (F := TypeFault floatText (strictFor strict specType prop) d ty)
          (fun q u hpv _ p m => primValue_iff (hplain prop d ty _ v q u hmem hp (strictFor_iff strict specType prop) hv hpv) p m)
        refine ⟨l, h3, fun m => ?_⟩
        rw [h4]
        constructor
        · rintro ⟨_, rfl, q, u, r, a1, a2, a3, rfl⟩
          exact ⟨ty, v, q, u, r, hp, hv, a1, a2, a3, rfl⟩
        · rintro ⟨ty', v', q, u, r, a0, a1, a2, a3, a4, rfl⟩
          cases primOf_det hp a0
          cases (dlookup_of_mem hnd hv).symm.trans (dlookup_of_mem hnd a1)
          exact ⟨_, rfl, q, u, r, a2, a3, a4, rfl⟩)
  refine ⟨res, h1, fun m => ?_⟩
  rw [h2]
  constructor
  · rintro ⟨prop, d, v, hv, hl, ty, v', q, u, r, a0, a1, a2, a3, a4, rfl⟩
    exact ⟨_, rfl, prop, d, ty, _, v', q, u, r, dlookup_mem hl, a0, strictFor_iff strict specType prop, a1, a2, a3, a4, rfl⟩
  · rintro ⟨_, rfl, prop, d, ty, b, v, q, u, r, a0, a1, a2, a3, a4, a5, a6, rfl⟩
    cases isStrict_det a2 (strictFor_iff strict specType prop)
    exact ⟨prop, d, v, a3, dlookup_of_mem hrows a0, ty, v, q, u, r, a1, a3, a4, a5, a6, rfl⟩

/-- the hypotheses are met: a text and a reference, with a list of texts, a map and a number -/
example : Finds (primRule (fun _ => false) true 2 "AWS::X" [("N", ⟨none, none, none, some "Integer"⟩), ("M", ⟨some "Map", none, some "String", none⟩)]
    (.dict [(.str "N", .str "1"), (.str "M", .dict [(.str "a", .int 1), (.str "b", .str "x")])]) [])
    [] (PropTypeFault (fun _ => false) true "AWS::X" [("N", ⟨none, none, none, some "Integer"⟩), ("M", ⟨some "Map", none, some "String", none⟩)]
      [(.str "N", .str "1"), (.str "M", .dict [(.str "a", .int 1), (.str "b", .str "x")])]) := by
  have leafM : ∀ {q u}, Leaf (.dict [(.str "a", .int 1), (.str "b", .str "x")]) q u → u = .dict [(.str "a", .int 1), (.str "b", .str "x")] :=
    fun h => ((leaf_of_notIf (by simp [IsIf])).1 h).2.1
  have leafN : ∀ {q u}, Leaf (.str "1") q u → u = .str "1" :=
    fun h => ((leaf_of_notIf (by simp [IsIf])).1 h).2.1
  refine C80_reports_partial (by decide) (by simp [Val.WF, Val.WFDict]) ?_ ?_ 0
  · intro prop d v hr hv
    simp only [List.mem_cons, Prod.mk.injEq, List.not_mem_nil, or_false] at hv
    rcases hv with ⟨-, rfl⟩ | ⟨-, rfl⟩
    · exact ⟨by simp, fun q h => by cases leafN h⟩
    · exact ⟨by simp, fun q h => by cases leafM h⟩
  · intro prop d ty b v q u hr hp hs hv hpv
    have hu : u = .str "1" ∨ u = .dict [(.str "a", .int 1), (.str "b", .str "x")] := by
      simp only [List.mem_cons, Prod.mk.injEq, List.not_mem_nil, or_false] at hv
      obtain ⟨q', u', hl, ⟨-, -, rfl⟩ | ⟨xs, i, x, r, e, -⟩⟩ := hpv
      · rcases hv with ⟨-, rfl⟩ | ⟨-, rfl⟩
        · exact .inl (leafN hl)
        · exact .inr (leafM hl)
      · rcases hv with ⟨-, rfl⟩ | ⟨-, rfl⟩
        · cases (leafN hl).symm.trans e
        · cases (leafM hl).symm.trans e
    rcases hu with rfl | rfl
    · exact ⟨fun _ => ⟨by simp, by simp⟩, by simp⟩
    · refine ⟨fun _ => ⟨by simp, by simp⟩, ?_⟩
      intro l k w e hm
      cases e
      simp only [List.mem_cons, Prod.mk.injEq, List.not_mem_nil, or_false] at hm
      rcases hm with ⟨-, rfl⟩ | ⟨-, rfl⟩ <;> exact fun _ => ⟨by simp, by simp⟩

/-- what it reports -/
example : primRule (fun _ => false) true 2 "AWS::X" [("N", ⟨none, none, none, some "Integer"⟩), ("M", ⟨some "Map", none, some "String", none⟩)]
    (.dict [(.str "N", .str "1"), (.str "M", .dict [(.str "a", .int 1), (.str "b", .str "x")])]) [] =
    .ok [[.str "N"], [.str "M", .str "a"]] := by decide +kernel

/-- **C80** does not hold: a truth value is accepted as a whole number. -/
theorem C80_violated : ¬ C80_statement := by
  intro h
  obtain ⟨n, l, h1, h2⟩ := h (fun _ => false) true "AWS::X" [("N", ⟨none, none, none, some "Integer"⟩)] [(.str "N", .bool true)] []
    (by decide) (by simp [Val.WF, Val.WFDict]) (by
      intro q hq
      cases hq with
      | key hm h' =>
        simp only [List.mem_cons, Prod.mk.injEq, List.not_mem_nil, or_false] at hm
        obtain ⟨-, rfl⟩ := hm
        cases h')
  have hq := (h2 [.str "N"]).2 ⟨_, rfl, [], _, [.str "N"], .here (by simp [IsIf]) (by simp [noValue]),
    ⟨"N", _, "Integer", true, .bool true, [], .bool true, [], List.mem_cons_self, ⟨by decide, .inl rfl⟩, by simp [IsStrict, LooseProp],
      List.mem_cons_self, ⟨[], _, .here (by simp [IsIf]) (by simp [noValue]), .inl ⟨by simp, rfl, rfl⟩⟩,
      (by intro f a e; cases e), .value (by simp) (by simp) (by
        rintro (h | ⟨h, -⟩)
        · rw [hasPrim_iff] at h
          simp at h
        · cases h), rfl⟩, rfl⟩
  match n with
  | 0 => cases h1
  | n + 1 =>
    have : primRule (fun _ => false) true (n + 1) "AWS::X" [("N", ⟨none, none, none, some "Integer"⟩)] (.dict [(.str "N", .bool true)]) [] = .ok [] := rfl
    have e := this.symm.trans h1
    injection e with e
    rw [← e] at hq
    cases hq

/-- **C80** A truth value is never reported where a number is declared, strict or not. -/
theorem C80_truth_accepted (ty : String) (hty : ty ∈ ["Integer", "Long", "Double"]) (strict b : Bool) (p : Path) :
    primTypeCheck floatText ty strict (.bool b) p = [] := by
  simp only [List.mem_cons, List.not_mem_nil, or_false] at hty
  rcases hty with rfl | rfl | rfl <;> rfl

/-- **C80** Where numbers may be read, a fraction is accepted as a whole number. -/
theorem C80_fraction_accepted {r : String} (h : r ∉ ["nan", "inf", "-inf"]) (p : Path) :
    primTypeCheck floatText "Integer" false (.flt r) p = [] := by
  simp only [List.mem_cons, List.not_mem_nil, or_false, not_or] at h
  simp [primTypeCheck, isDictVal, isIntVal, looseCheck, isBoolVal, intReads, h]

/-- **C80** Not so where a `Long` is declared. -/
theorem C80_long_fraction (r : String) (p : Path) : p ∈ primTypeCheck floatText "Long" false (.flt r) p := by
  simp [primTypeCheck, isDictVal, isIntVal, looseCheck, isBoolVal, isFltVal]

/-- **C80** Nothing is reported for properties that depend, as a whole, on a condition. -/
theorem C80_condition_silent {strict : Bool} {specType : String} {rows : List (String × PropRow)} (h : ∀ d, ("Fn::If", d) ∉ rows) (c a b : Val)
    (n : Nat) (path : Path) : primRule floatText strict n specType rows (fnIf c a b) path = .ok [] := by
  have : dlookup "Fn::If" rows = none := by
    cases hd : dlookup "Fn::If" rows with
    | none => rfl
    | some d => exact absurd (dlookup_mem hd) (h d)
  simp [primRule, declaredIn, fnIf, iterOf, Key.toVal, collectM, this]

/-- **C80** Nor for a map in place of which there is something else. -/
theorem C80_no_map {ty : String} {strict : Bool} {v : Val} (h : ∀ kvs, v ≠ .dict kvs) (p : Path) :
    primValueCheck floatText ty (some "Map") strict v p = [] := by
  unfold primValueCheck
  rw [if_pos rfl]
  cases v <;> first | rfl | exact absurd rfl (h _)

end CfnLint
