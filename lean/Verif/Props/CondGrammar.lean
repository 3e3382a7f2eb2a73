import Mathlib.Tactic.Tauto
import Verif.Spec.CondGrammar
import Verif.Props.RefTable
import Verif.Props.PropSets
import Verif.Props.CondRules
/- Properties of the rules about the form of conditions (C67, C68). -/
namespace CfnLint
open Spec

theorem isKeyIn_iff {k : Key} {l : List String} : isKeyIn k l = true ↔ ∃ s ∈ l, k = .str s := by
  cases k with
  | str s => simp [isKeyIn]
  | int i => simp [isKeyIn]

theorem mem_zip_iff {xs : List Val} {e : Val} {i : Nat} : (e, i) ∈ xs.zipIdx ↔ xs[i]? = some e := by
  simp [List.mem_zipIdx_iff_getElem?]

theorem notCondKey {k : Key} : isKeyIn k conditionKeys = false ↔ ∀ f ∈ grammarFunctions, k ≠ .str f := by
  rw [← Bool.not_eq_true, isKeyIn_iff]
  simp only [conditionKeys, grammarFunctions, List.mem_cons, List.not_mem_nil, or_false]
  constructor
  · intro h f hf e
    exact h ⟨f, by tauto, e⟩
  · rintro h ⟨s, hs, e⟩
    exact h s (by tauto) e

theorem notOpKey {k : Key} : isKeyIn k equalsFunctions = false ↔ ∀ f ∈ operandFunctions, k ≠ .str f := by
  rw [← Bool.not_eq_true, isKeyIn_iff]
  simp only [equalsFunctions, operandFunctions, List.mem_cons, List.not_mem_nil, or_false]
  constructor
  · intro h f hf e
    exact h ⟨f, by tauto, e⟩
  · rintro h ⟨s, hs, e⟩
    exact h s (by tauto) e

/-- the `Conditions` section, if any, is an object -/
def CondsObject (t : Val) : Prop := ∀ v, At t [.str "Conditions"] v → ∃ cs, v = .dict cs

/-- **C67** Rule E8001 reports exactly the conditions that are not a call of one of the functions, and where they fail. -/
theorem C67_conditions {t : Val} (hw : t.WF) (ht : ∃ kvs, t = .dict kvs) (hc : CondsObject t) :
    ∃ res, configurationRule t = .ok res ∧ ∀ p, p ∈ res ↔ BadCondition t p := by
  obtain ⟨kvs, rfl⟩ := ht
  obtain ⟨cs, hcs, hm⟩ := sectionItems_ok (name := "Conditions") hw hc
  unfold configurationRule
  rw [hcs]
  refine ⟨_, rfl, fun p => ?_⟩
  rw [List.mem_flatMap]
  constructor
  · rintro ⟨⟨k, v⟩, hkv, hp⟩
    have hat := (hm k v).1 hkv
    cases v with
    | dict l =>
      simp only [configurationOne] at hp
      split at hp
      · rename_i hl
        simp only [List.mem_cons, List.not_mem_nil, or_false] at hp
        subst hp
        refine .form hat ?_
        intro x w e
        injection e with e
        subst e
        exact hl rfl
      · rename_i hl
        match l, hl with
        | [(x, w)], _ =>
          obtain ⟨⟨x', w'⟩, h1, rfl⟩ := List.mem_map.1 hp
          obtain ⟨h1, h2⟩ := List.mem_filter.1 h1
          simp only [List.mem_cons, List.not_mem_nil, or_false] at h1
          obtain ⟨rfl, rfl⟩ := Prod.mk.inj h1
          exact .function hat (notCondKey.1 (by simpa using h2))
        | [], hl => simp at hl
        | _ :: _ :: _, hl => simp at hl
    | _ =>
      simp only [configurationOne, List.mem_cons, List.not_mem_nil, or_false] at hp
      subst hp
      exact .form hat (by simp)
  · intro hb
    cases hb with
    | form hat hf =>
      rename_i k v
      refine ⟨(k, v), (hm k v).2 hat, ?_⟩
      cases v with
      | dict l =>
        simp only [configurationOne]
        rw [if_pos]
        · exact List.mem_cons_self
        · intro hl
          match l, hl with
          | [(x, w)], _ => exact hf x w rfl
      | _ => exact List.mem_cons_self
    | function hat hf =>
      rename_i k x w
      refine ⟨(k, _), (hm k _).2 hat, ?_⟩
      simp only [configurationOne]
      rw [if_neg (by simp)]
      simp [notCondKey.2 hf]

theorem mem_inConditions {t : Val} (hw : t.WF) {fn : String} {p : Path} {v : Val} (hfn : fn ≠ "Conditions") :
    ((p, v) ∈ searchDeepKeys fn t (.dict []) ∧ inConditions p = true) ↔
      ∃ q, p = .str "Conditions" :: q ++ [.str fn] ∧ At t p v := by
  rw [(C27_search_partial fn t hw).1]
  constructor
  · rintro ⟨⟨hat, q, rfl⟩, hin⟩
    simp only [inConditions, beq_iff_eq] at hin
    cases q with
    | nil => simp at hin; exact absurd hin hfn
    | cons k q =>
      simp at hin
      subst hin
      exact ⟨q, rfl, hat⟩
  · rintro ⟨q, rfl, hat⟩
    exact ⟨⟨hat, .str "Conditions" :: q, rfl⟩, by simp [inConditions]⟩

theorem mem_conditionElement {path p : Path} {v : Val} {i : Nat} : p ∈ conditionElement path (v, i) ↔
    (p = path ++ [.int i] ∧ ∀ x w, v ≠ .dict [(x, w)]) ∨
    ∃ x w, p = path ++ [.int i, x] ∧ v = .dict [(x, w)] ∧ ∀ f ∈ grammarFunctions, x ≠ .str f := by
  unfold conditionElement
  cases v with
  | dict l =>
    simp only
    split
    · rename_i hl
      match l, hl with
      | [(x, w)], _ =>
        constructor
        · intro hp
          obtain ⟨⟨x', w'⟩, h1, rfl⟩ := List.mem_map.1 hp
          obtain ⟨h1, h2⟩ := List.mem_filter.1 h1
          simp only [List.mem_cons, List.not_mem_nil, or_false] at h1
          obtain ⟨rfl, rfl⟩ := Prod.mk.inj h1
          exact .inr ⟨x', w', rfl, rfl, notCondKey.1 (by simpa using h2)⟩
        · rintro (⟨_, h⟩ | ⟨x', w', rfl, h, hf⟩)
          · exact absurd rfl (h x w)
          · injection h with h
            injection h with h _
            obtain ⟨rfl, rfl⟩ := Prod.mk.inj h
            simp [notCondKey.2 hf]
    · rename_i hl
      simp only [List.mem_cons, List.not_mem_nil, or_false]
      constructor
      · rintro rfl
        refine .inl ⟨rfl, ?_⟩
        intro x w e
        injection e with e
        subst e
        exact hl rfl
      · rintro (⟨h, _⟩ | ⟨x, w, _, h, _⟩)
        · exact h
        · injection h with h
          subst h
          exact absurd rfl hl
  | _ => simp

/-- **C67** The rules E8004, E8005 and E8006 report exactly the calls of `Fn::And`, `Fn::Not` and `Fn::Or` in the conditions
whose argument is no list of as many conditions as the function takes, and where they fail. -/
theorem C67_lists {t : Val} (hw : t.WF) {fn : String} (hfn : fn ≠ "Conditions") (p : Path) :
    p ∈ conditionListRule fn t (.dict []) ↔ BadList t fn p := by
  have hsz : ∀ n, ((fn = "Fn::Not" ∧ n ≠ 1) ∨ (fn ≠ "Fn::Not" ∧ ¬ (2 ≤ n ∧ n ≤ 10))) ↔ ¬ SizeOk fn n := by
    intro n
    unfold SizeOk
    by_cases h : fn = "Fn::Not" <;> simp [h]
  unfold conditionListRule
  rw [List.mem_flatMap]
  constructor
  · rintro ⟨⟨p', v⟩, hf, hp⟩
    unfold conditionListOne at hp
    split at hp
    · rename_i hin
      obtain ⟨q, rfl, hat⟩ := (mem_inConditions hw hfn).1 ⟨hf, hin⟩
      cases v with
      | list xs =>
        simp only at hp
        split at hp
        · rename_i h1
          simp only [List.mem_cons, List.not_mem_nil, or_false] at hp
          subst hp
          refine .size hat ?_
          intro xs' e
          injection e with e
          subst e
          exact (hsz _).1 (.inl h1)
        · rename_i h1
          split at hp
          · rename_i h2
            simp only [List.mem_cons, List.not_mem_nil, or_false] at hp
            subst hp
            refine .size hat ?_
            intro xs' e
            injection e with e
            subst e
            exact (hsz _).1 (.inr h2)
          · rename_i h2
            have hok : SizeOk fn xs.length := by
              by_contra hn
              rcases (hsz _).2 hn with h | h
              · exact h1 h
              · exact h2 h
            obtain ⟨⟨e, i⟩, hi, hp⟩ := List.mem_flatMap.1 hp
            have hi' : xs[i]? = some e := mem_zip_iff.1 hi
            rcases mem_conditionElement.1 hp with ⟨rfl, h3⟩ | ⟨x, w, rfl, rfl, h3⟩
            · have := BadList.form hat hok hi' h3
              simpa using this
            · have := BadList.function hat hok hi' h3
              simpa using this
      | _ =>
        simp only [List.mem_cons, List.not_mem_nil, or_false] at hp
        subst hp
        exact .size hat (by simp)
    · cases hp
  · intro hb
    have hmem : ∀ {q : Path} {v : Val}, At t (.str "Conditions" :: q ++ [.str fn]) v →
        (.str "Conditions" :: q ++ [.str fn], v) ∈ searchDeepKeys fn t (.dict []) ∧
          inConditions (.str "Conditions" :: q ++ [.str fn]) = true :=
      fun hat => (mem_inConditions hw hfn).2 ⟨_, rfl, hat⟩
    have hel : ∀ {q : Path} {xs : List Val} {i : Nat} {e : Val} {p : Path}, SizeOk fn xs.length → xs[i]? = some e →
        p ∈ conditionElement (.str "Conditions" :: q ++ [.str fn]) (e, i) →
        inConditions (.str "Conditions" :: q ++ [.str fn]) = true →
        p ∈ conditionListOne fn (.str "Conditions" :: q ++ [.str fn], .list xs) := by
      intro q xs i e p hok hi hp hin
      unfold conditionListOne
      simp only
      rw [if_pos hin, if_neg (fun h => (hsz _).1 (.inl h) hok), if_neg (fun h => (hsz _).1 (.inr h) hok)]
      exact List.mem_flatMap.2 ⟨(e, i), mem_zip_iff.2 hi, hp⟩
    cases hb with
    | size hat hs =>
      rename_i q v
      obtain ⟨h1, h2⟩ := hmem hat
      refine ⟨_, h1, ?_⟩
      unfold conditionListOne
      simp only
      rw [if_pos h2]
      cases v with
      | list xs =>
        simp only
        rcases (hsz _).2 (hs xs rfl) with h | h
        · rw [if_pos h]; exact List.mem_cons_self
        · rw [if_neg (fun h' => h.1 h'.1), if_pos h]; exact List.mem_cons_self
      | _ => exact List.mem_cons_self
    | form hat hok hi hf =>
      obtain ⟨h1, h2⟩ := hmem hat
      refine ⟨_, h1, hel hok hi (mem_conditionElement.2 (.inl ⟨by simp, hf⟩)) h2⟩
    | function hat hok hi hf =>
      obtain ⟨h1, h2⟩ := hmem hat
      refine ⟨_, h1, hel hok hi (mem_conditionElement.2 (.inr ⟨_, _, by simp, rfl, hf⟩)) h2⟩

theorem listType_iff {ty : String} : ty ∈ listParameterTypes ↔ IsListType ty := by
  constructor
  · intro h
    simp only [listParameterTypes, List.mem_cons, List.not_mem_nil, or_false] at h
    unfold IsListType
    rcases h with rfl | rfl | rfl | rfl | rfl | rfl | rfl | rfl | rfl | rfl | rfl | rfl | rfl | rfl | rfl | rfl | rfl | rfl | rfl | rfl |
      rfl | rfl | rfl | rfl <;> decide
  · rintro (rfl | ⟨x, hx, rfl⟩ | rfl | ⟨x, hx, rfl⟩)
    · decide
    · simp only [List.mem_cons, List.not_mem_nil, or_false] at hx
      rcases hx with rfl | rfl | rfl | rfl | rfl | rfl | rfl | rfl | rfl | rfl | rfl <;> decide
    · decide
    · simp only [List.mem_cons, List.not_mem_nil, or_false] at hx
      rcases hx with rfl | rfl | rfl | rfl | rfl | rfl | rfl | rfl | rfl | rfl | rfl <;> decide

theorem isListRef_iff {t : Val} {s : String} {r : Option (Val × String)} (hr : ∀ ty f, r = some (ty, f) ↔ RefersTo t s ty f)
    (hc : ClearName t s) : isListRef r = true ↔ ListParameter t s := by
  constructor
  · intro h
    match r, h, hr with
    | some (.str ty, f), h, hr =>
      simp only [isListRef, Bool.and_eq_true, beq_iff_eq, decide_eq_true_eq] at h
      obtain ⟨rfl, h⟩ := h
      have := (hr _ _).1 rfl
      generalize hf : "Parameters" = f at this
      generalize hv : Val.str ty = v at this
      cases this with
      | parameter h1 => subst hv; exact ⟨ty, h1, listType_iff.1 h⟩
      | resource => simp at hf
      | pseudo => simp at hf
      | module => simp at hf
  · rintro ⟨ty, h1, h2⟩
    obtain ⟨h3, h4⟩ := hc.once _ h1
    rw [(hr _ _).2 (.parameter h1 h3 h4)]
    simp [isListRef, listType_iff.2 h2]

theorem equalsOperand_spec {rx : String → String → PyM Bool} {t : Val} {tab : RefTable} {path : Path} {v : Val} {i : Nat}
    (href : ∀ w, v = .dict [(.str "Ref", w)] → ∃ s, w = .str s ∧ ∃ r, regexGet rx tab (.str s) = .ok r ∧
      (isListRef r = true ↔ ListParameter t s)) :
    ∃ l, equalsOperand rx tab path (v, i) = .ok l ∧ ∀ p, p ∈ l ↔
      (p = path ++ [.int i] ∧ ¬ Literal v ∧ ∀ x w, v ≠ .dict [(x, w)]) ∨
      (∃ x w, p = path ++ [.int i, x] ∧ v = .dict [(x, w)] ∧ ∀ f ∈ operandFunctions, x ≠ .str f) ∨
      (∃ s, p = path ++ [.int i] ∧ v = .dict [(.str "Ref", .str s)] ∧ ListParameter t s) := by
  cases v with
  | dict l =>
    simp only [equalsOperand]
    match l, href with
    | [], _ => exact ⟨_, rfl, fun p => by simp [Literal]⟩
    | _ :: _ :: _, _ => exact ⟨_, rfl, fun p => by simp [Literal]⟩
    | [(k, w)], href =>
      simp only [equalsElement]
      cases hk : isKeyIn k equalsFunctions with
      | false =>
        refine ⟨_, rfl, fun p => ?_⟩
        have := notOpKey.1 hk
        simp only [List.mem_cons, List.not_mem_nil, or_false, Val.dict.injEq, List.cons.injEq, Prod.mk.injEq, and_true]
        constructor
        · rintro rfl
          exact .inr (.inl ⟨k, w, by simp, ⟨rfl, rfl⟩, this⟩)
        · rintro (⟨_, _, h⟩ | ⟨x, w', rfl, ⟨rfl, rfl⟩, _⟩ | ⟨s, _, ⟨rfl, _⟩, _⟩)
          · exact absurd rfl (h k w)
          · simp
          · exact absurd rfl (this "Ref" (by decide))
      | true =>
        rw [if_neg (by simp)]
        obtain ⟨f, hf1, rfl⟩ := isKeyIn_iff.1 hk
        have hf : ∀ x w', Val.dict [(.str f, w)] = .dict [(x, w')] → ¬ ∀ g ∈ operandFunctions, x ≠ .str g := by
          intro x w' e h
          have he : Key.str f = x := by injection e with e; injection e with e; exact (Prod.mk.inj e).1
          exact h f (by simp only [equalsFunctions, operandFunctions, List.mem_cons, List.not_mem_nil, or_false] at hf1 ⊢; tauto) he.symm
        split
        · rename_i hrk
          injection hrk with hrk
          subst hrk
          obtain ⟨s, rfl, r, hr, hl⟩ := href w rfl
          rw [hr]
          refine ⟨_, rfl, fun p => ?_⟩
          constructor
          · intro hp
            cases hb : isListRef r with
            | false => rw [hb] at hp; simp at hp
            | true =>
              rw [hb] at hp
              simp only [if_true, List.mem_cons, List.not_mem_nil, or_false] at hp
              exact .inr (.inr ⟨s, hp, rfl, hl.1 hb⟩)
          · rintro (⟨_, _, h⟩ | ⟨x, w', rfl, h, h2⟩ | ⟨s', rfl, h, h2⟩)
            · exact absurd rfl (h _ _)
            · exact absurd h2 (hf x w' h)
            · simp at h
              subst h
              simp [hl.2 h2]
        · rename_i hrk
          refine ⟨_, rfl, fun p => ?_⟩
          constructor
          · intro h; cases h
          · rintro (⟨_, _, h⟩ | ⟨x, w', rfl, h, h2⟩ | ⟨s', rfl, h, h2⟩)
            · exact absurd rfl (h _ _)
            · exact absurd h2 (hf x w' h)
            · simp at h
              exact absurd (by rw [h.1]) hrk
  | list xs => exact ⟨_, rfl, fun p => by simp [Literal]⟩
  | none => exact ⟨_, rfl, fun p => by simp [Literal]⟩
  | bool b => exact ⟨_, rfl, fun p => by simp [Literal]⟩
  | int n => exact ⟨_, rfl, fun p => by simp [Literal]⟩
  | flt n => exact ⟨_, rfl, fun p => by simp [Literal]⟩
  | str n => exact ⟨_, rfl, fun p => by simp [Literal]⟩

/-- **C67** Rule E8003 ends normally and reports exactly the calls of `Fn::Equals` in the conditions that do not compare two
operands, if references are texts that the table of references finds (C66). -/
theorem C67_equals_partial {rx : String → String → PyM Bool} {t : Val} (hrx : MatchesPrefixes rx) (h : SectionsOk t) (hc : ClearRefs t) :
    ∃ res, equalsRule rx t (.dict []) = .ok res ∧ ∀ p, p ∈ res ↔ BadEquals t p := by
  obtain ⟨tab, htab, hlook⟩ := C66_lookup_partial hrx h
  have href : ∀ (q : Path) (xs : List Val) (i : Nat) (v : Val), At t (.str "Conditions" :: q ++ [.str "Fn::Equals"]) (.list xs) →
      xs[i]? = some v → ∀ w, v = .dict [(.str "Ref", w)] → ∃ s, w = .str s ∧ ∃ r, regexGet rx tab (.str s) = .ok r ∧
      (isListRef r = true ↔ ListParameter t s) := by
    rintro q xs i v hat hi w rfl
    obtain ⟨s, rfl, hs⟩ := hc q i w (by
      have := at_append hat (.idx hi (.key List.mem_cons_self .here))
      simpa using this)
    obtain ⟨r, hr, hiff⟩ := hlook s hs.begins hs.modules
    exact ⟨s, rfl, r, hr, isListRef_iff hiff hs⟩
  have hone : ∀ q v, At t (.str "Conditions" :: q ++ [.str "Fn::Equals"]) v → ∃ l,
      equalsOne rx tab (.str "Conditions" :: q ++ [.str "Fn::Equals"], v) = .ok l ∧ ∀ p, p ∈ l ↔
      (p = .str "Conditions" :: q ++ [.str "Fn::Equals"] ∧ ∀ a b, v ≠ .list [a, b]) ∨
      ∃ a b, ∃ i : Nat, ∃ e, v = .list [a, b] ∧ [a, b][i]? = some e ∧
      ((p = .str "Conditions" :: q ++ [.str "Fn::Equals"] ++ [.int i] ∧ ¬ Literal e ∧ ∀ x w, e ≠ .dict [(x, w)]) ∨
      (∃ x w, p = .str "Conditions" :: q ++ [.str "Fn::Equals"] ++ [.int i, x] ∧ e = .dict [(x, w)] ∧ ∀ f ∈ operandFunctions, x ≠ .str f) ∨
      (∃ s, p = .str "Conditions" :: q ++ [.str "Fn::Equals"] ++ [.int i] ∧ e = .dict [(.str "Ref", .str s)] ∧ ListParameter t s)) := by
    intro q v hat
    unfold equalsOne
    simp only
    rw [if_pos (by simp [inConditions])]
    cases v with
    | list xs =>
      simp only
      split
      · rename_i hl
        refine ⟨_, rfl, fun p => ?_⟩
        simp only [List.mem_cons, List.not_mem_nil, or_false]
        constructor
        · rintro rfl
          refine .inl ⟨rfl, ?_⟩
          intro a b e
          injection e with e
          subst e
          exact hl rfl
        · rintro (⟨h, _⟩ | ⟨a, b, i, e, h, _⟩)
          · exact h
          · injection h with h
            subst h
            exact absurd rfl hl
      · rename_i hl
        match xs, hl, hat with
        | [a, b], _, hat =>
          obtain ⟨l, hres⟩ : ∃ l, collectM (equalsOperand rx tab (.str "Conditions" :: q ++ [.str "Fn::Equals"])) [a, b].zipIdx = .ok l := by
            apply collectM_ok
            rintro ⟨e, i⟩ he
            have hi : [a, b][i]? = some e := mem_zip_iff.1 he
            obtain ⟨l, h1, _⟩ := equalsOperand_spec (path := .str "Conditions" :: q ++ [.str "Fn::Equals"]) (i := i) (href q _ i e hat hi)
            exact ⟨l, h1⟩
          refine ⟨l, hres, fun p => ?_⟩
          rw [mem_collectM hres]
          constructor
          · rintro ⟨⟨e, i⟩, he, l', h1, h2⟩
            have hi : [a, b][i]? = some e := mem_zip_iff.1 he
            obtain ⟨l'', h3, h4⟩ := equalsOperand_spec (path := .str "Conditions" :: q ++ [.str "Fn::Equals"]) (i := i) (href q _ i e hat hi)
            rw [h1] at h3
            injection h3 with h3
            subst h3
            exact .inr ⟨a, b, i, e, rfl, hi, (h4 p).1 h2⟩
          · rintro (⟨_, h⟩ | ⟨a', b', i, e, h, hi, h2⟩)
            · exact absurd rfl (h a b)
            · injection h with h
              injection h with h3 h4
              injection h4 with h4
              subst h3 h4
              obtain ⟨l'', h3, h4⟩ := equalsOperand_spec (path := .str "Conditions" :: q ++ [.str "Fn::Equals"]) (i := i) (href q _ i e hat hi)
              exact ⟨(e, i), mem_zip_iff.2 hi, l'', h3, (h4 p).2 h2⟩
        | [], hl, _ => simp at hl
        | [_], hl, _ => simp at hl
        | _ :: _ :: _ :: _, hl, _ => simp at hl
    | _ => exact ⟨_, rfl, fun p => by simp⟩
  have hskip : ∀ p v, inConditions p = false → equalsOne rx tab (p, v) = .ok [] := by
    intro p v hp
    unfold equalsOne
    simp [hp]
  obtain ⟨res, hres⟩ : ∃ res, collectM (equalsOne rx tab) (searchDeepKeys "Fn::Equals" t (.dict [])) = .ok res := by
    apply collectM_ok
    rintro ⟨p, v⟩ hf
    cases hin : inConditions p with
    | false => exact ⟨_, hskip p v hin⟩
    | true =>
      obtain ⟨q, rfl, hat⟩ := (mem_inConditions h.wf (by decide)).1 ⟨hf, hin⟩
      obtain ⟨l, h1, _⟩ := hone q v hat
      exact ⟨l, h1⟩
  refine ⟨res, by unfold equalsRule; rw [htab]; exact hres, fun p => ?_⟩
  rw [mem_collectM hres]
  constructor
  · rintro ⟨⟨p', v⟩, hf, l, h1, h2⟩
    cases hin : inConditions p' with
    | false =>
      rw [hskip p' v hin] at h1
      injection h1 with h1
      subst h1
      cases h2
    | true =>
      obtain ⟨q, rfl, hat⟩ := (mem_inConditions h.wf (by decide)).1 ⟨hf, hin⟩
      obtain ⟨l', h3, h4⟩ := hone q v hat
      rw [h1] at h3
      injection h3 with h3
      subst h3
      rcases (h4 p).1 h2 with ⟨rfl, h5⟩ | ⟨a, b, i, e, rfl, hi, h5⟩
      · exact .size hat h5
      · rcases h5 with ⟨rfl, h6, h7⟩ | ⟨x, w, rfl, rfl, h7⟩ | ⟨s, rfl, rfl, h7⟩
        · have := BadEquals.form hat hi h6 h7
          simpa using this
        · have := BadEquals.function hat hi h7
          simpa using this
        · have := BadEquals.listRef hat hi h7
          simpa using this
  · intro hb
    have hfind : ∀ {q : Path} {v : Val} {p : Path}, At t (.str "Conditions" :: q ++ [.str "Fn::Equals"]) v →
        ((p = .str "Conditions" :: q ++ [.str "Fn::Equals"] ∧ ∀ a b, v ≠ .list [a, b]) ∨
      ∃ a b, ∃ i : Nat, ∃ e, v = .list [a, b] ∧ [a, b][i]? = some e ∧
      ((p = .str "Conditions" :: q ++ [.str "Fn::Equals"] ++ [.int i] ∧ ¬ Literal e ∧ ∀ x w, e ≠ .dict [(x, w)]) ∨
      (∃ x w, p = .str "Conditions" :: q ++ [.str "Fn::Equals"] ++ [.int i, x] ∧ e = .dict [(x, w)] ∧ ∀ f ∈ operandFunctions, x ≠ .str f) ∨
      (∃ s, p = .str "Conditions" :: q ++ [.str "Fn::Equals"] ++ [.int i] ∧ e = .dict [(.str "Ref", .str s)] ∧ ListParameter t s))) →
        ∃ a ∈ searchDeepKeys "Fn::Equals" t (.dict []), ∃ l, equalsOne rx tab a = .ok l ∧ p ∈ l := by
      intro q v p hat hp
      obtain ⟨h1, _⟩ := (mem_inConditions h.wf (fn := "Fn::Equals") (by decide)).2 ⟨q, rfl, hat⟩
      obtain ⟨l, h3, h4⟩ := hone q v hat
      exact ⟨_, h1, l, h3, (h4 p).2 hp⟩
    cases hb with
    | size hat hs => exact hfind hat (.inl ⟨rfl, hs⟩)
    | form hat hi h1 h2 => exact hfind hat (.inr ⟨_, _, _, _, rfl, hi, .inl ⟨by simp, h1, h2⟩⟩)
    | function hat hi h1 => exact hfind hat (.inr ⟨_, _, _, _, rfl, hi, .inr (.inl ⟨_, _, by simp, rfl, h1⟩)⟩)
    | listRef hat hi h1 => exact hfind hat (.inr ⟨_, _, _, _, rfl, hi, .inr (.inr ⟨_, by simp, rfl, h1⟩)⟩)

/-! ### The grammar -/

/-- the rules about the form of conditions report nothing -/
structure CondSilent (rx : String → String → PyM Bool) (t : Val) : Prop where
  conditions : configurationRule t = .ok []
  equals : equalsRule rx t (.dict []) = .ok []
  and : conditionListRule "Fn::And" t (.dict []) = []
  not : conditionListRule "Fn::Not" t (.dict []) = []
  or : conditionListRule "Fn::Or" t (.dict []) = []

/-- The full C67 statement: the rules E8001 and E8003 to E8006 are silent exactly on the templates whose conditions follow the
grammar. -/
def C67_statement : Prop := ∀ (rx : String → String → PyM Bool) (t : Val), MatchesPrefixes rx → SectionsOk t → CondsObject t →
  (CondSilent rx t ↔ AllGrammatical t)

theorem nil_of_spec {l : List Path} {P : Path → Prop} (h : ∀ p, p ∈ l ↔ P p) : l = [] ↔ ∀ p, ¬ P p := by
  constructor
  · rintro rfl p hp
    exact List.not_mem_nil ((h p).2 hp)
  · intro hn
    cases l with
    | nil => rfl
    | cons x xs => exact absurd ((h x).1 List.mem_cons_self) (hn x)

theorem condSilent_iff {rx : String → String → PyM Bool} {t : Val} (hrx : MatchesPrefixes rx) (h : SectionsOk t) (ho : CondsObject t)
    (hc : ClearRefs t) : CondSilent rx t ↔ (∀ p, ¬ BadCondition t p) ∧ (∀ p, ¬ BadEquals t p) ∧ (∀ p, ¬ BadList t "Fn::And" p) ∧
      (∀ p, ¬ BadList t "Fn::Not" p) ∧ ∀ p, ¬ BadList t "Fn::Or" p := by
  obtain ⟨r1, h1, s1⟩ := C67_conditions h.wf h.top ho
  obtain ⟨r2, h2, s2⟩ := C67_equals_partial hrx h hc
  have h3 := nil_of_spec (C67_lists h.wf (fn := "Fn::And") (by decide))
  have h4 := nil_of_spec (C67_lists h.wf (fn := "Fn::Not") (by decide))
  have h5 := nil_of_spec (C67_lists h.wf (fn := "Fn::Or") (by decide))
  have e1 := nil_of_spec s1
  have e2 := nil_of_spec s2
  constructor
  · rintro ⟨a, b, c, d, e⟩
    rw [h1] at a
    rw [h2] at b
    injection a with a
    injection b with b
    exact ⟨e1.1 a, e2.1 b, h3.1 c, h4.1 d, h5.1 e⟩
  · rintro ⟨a, b, c, d, e⟩
    exact ⟨by rw [h1, e1.2 a], by rw [h2, e2.2 b], h3.2 c, h4.2 d, h5.2 e⟩

/-- the argument of a call in a list of conditions -/
theorem list_elements {t : Val} {fn : String} {q : Path} {w : Val} (hno : ∀ p, ¬ BadList t fn p)
    (hat : At t (.str "Conditions" :: q ++ [.str fn]) w) : ∃ xs, w = .list xs ∧ SizeOk fn xs.length ∧
      ∀ (i : Nat) (v : Val), xs[i]? = some v → ∃ k u, v = .dict [(.str k, u)] ∧ k ∈ grammarFunctions := by
  have h1 : ∃ xs, w = .list xs ∧ SizeOk fn xs.length := by
    by_contra hn
    exact hno _ (.size hat (fun xs e hs => hn ⟨xs, e, hs⟩))
  obtain ⟨xs, rfl, hs⟩ := h1
  refine ⟨xs, rfl, hs, fun i v hi => ?_⟩
  by_contra hn
  by_cases hv : ∃ x u, v = .dict [(x, u)]
  · obtain ⟨x, u, rfl⟩ := hv
    exact hno _ (.function hat hs hi (fun f hf e => hn ⟨f, u, by rw [e], hf⟩))
  · exact hno _ (.form hat hs hi (fun x u e => hv ⟨x, u, e⟩))

theorem goodOperand_of {t : Val} {q : Path} {a b : Val} (hc : ClearRefs t) (hP : PlainOperands t) (hno : ∀ p, ¬ BadEquals t p)
    (hat : At t (.str "Conditions" :: q ++ [.str "Fn::Equals"]) (.list [a, b])) {i : Nat} {v : Val} (hi : [a, b][i]? = some v) :
    GoodOperand t v := by
  by_cases hl : Literal v
  · exact .inl hl
  · by_cases hv : ∃ x u, v = .dict [(x, u)]
    · obtain ⟨x, u, rfl⟩ := hv
      by_cases hf : ∀ f ∈ operandFunctions, x ≠ .str f
      · exact absurd (.function hat hi hf) (hno _)
      · have : ∃ f ∈ operandFunctions, x = .str f := by
          by_contra hn
          exact hf (fun f hf' e => hn ⟨f, hf', e⟩)
        obtain ⟨f, hf', rfl⟩ := this
        refine .inr ⟨f, u, rfl, hf', ?_, ?_⟩
        · rintro rfl
          obtain ⟨s, rfl, _⟩ := hc q i u (by
            have := at_append hat (.idx hi (.key List.mem_cons_self .here))
            simpa using this)
          exact ⟨s, rfl, fun hls => hno _ (.listRef hat hi hls)⟩
        · intro q' fn hfn u' h'
          refine hP q i q' fn u' hfn ?_
          have := at_append hat (.idx hi h')
          simpa using this
    · exact absurd (.form hat hi hl (fun x u e => hv ⟨x, u, e⟩)) (hno _)

theorem grammatical_of {t : Val} (hE : ∀ p, ¬ BadEquals t p) (hA : ∀ p, ¬ BadList t "Fn::And" p)
    (hN : ∀ p, ¬ BadList t "Fn::Not" p) (hO : ∀ p, ¬ BadList t "Fn::Or" p) (hT : TextNames t) (hc : ClearRefs t)
    (hP : PlainOperands t) :
    ∀ (n : Nat) (k : String) (w : Val) (q : Path), sizeOf w < n → k ∈ grammarFunctions →
      At t (.str "Conditions" :: q) (.dict [(.str k, w)]) → Grammatical t (.dict [(.str k, w)]) := by
  intro n
  induction n with
  | zero => intro k w q hn; omega
  | succ n ih =>
    intro k w q hn hk hat
    have hat' : At t (.str "Conditions" :: q ++ [.str k]) w := by
      have := at_append hat (.key List.mem_cons_self .here)
      simpa using this
    have hin : ∀ {xs : List Val} {v : Val}, w = .list xs → SizeOk k xs.length →
        (∀ (i : Nat) (v : Val), xs[i]? = some v → ∃ k u, v = .dict [(.str k, u)] ∧ k ∈ grammarFunctions) → v ∈ xs → Grammatical t v := by
      rintro xs v rfl _ hel hv
      obtain ⟨i, hi⟩ := List.mem_iff_getElem?.1 hv
      obtain ⟨k', u, rfl, hk'⟩ := hel i v hi
      refine ih k' u (q ++ [.str k, .int i]) ?_ hk' ?_
      · have := List.sizeOf_lt_of_mem hv
        simp only [Val.list.sizeOf_spec, Val.dict.sizeOf_spec, List.cons.sizeOf_spec, Prod.mk.sizeOf_spec] at hn this ⊢
        omega
      · have := at_append hat' (.idx hi .here)
        simpa using this
    simp only [grammarFunctions, List.mem_cons, List.not_mem_nil, or_false] at hk
    rcases hk with rfl | rfl | rfl | rfl | rfl
    · obtain ⟨xs, rfl, hs, hel⟩ := list_elements hA hat'
      have h2 := hs.2 (by decide)
      exact .and h2.1 h2.2 (fun v hv => hin rfl hs hel hv)
    · obtain ⟨xs, rfl, hs, hel⟩ := list_elements hO hat'
      have h2 := hs.2 (by decide)
      exact .or h2.1 h2.2 (fun v hv => hin rfl hs hel hv)
    · obtain ⟨xs, rfl, hs, hel⟩ := list_elements hN hat'
      have h2 := hs.1 rfl
      match xs, h2 with
      | [v], _ => exact .not (hin rfl hs hel List.mem_cons_self)
    · have : ∃ a b, w = .list [a, b] := by
        by_contra hn'
        exact hE _ (.size hat' (fun a b e => hn' ⟨a, b, e⟩))
      obtain ⟨a, b, rfl⟩ := this
      exact .equals (goodOperand_of hc hP hE hat' (i := 0) rfl) (goodOperand_of hc hP hE hat' (i := 1) rfl)
    · obtain ⟨s, rfl⟩ := hT q w hat'
      exact .named

/-- **C67** Silence of the rules means that every condition follows the grammar, if arguments of `Condition` are texts,
references are texts the table of references finds, and no logical functions stand inside operands. -/
theorem C67_sound_partial {rx : String → String → PyM Bool} {t : Val} (hrx : MatchesPrefixes rx) (h : SectionsOk t)
    (ho : CondsObject t) (hc : ClearRefs t) (hT : TextNames t) (hP : PlainOperands t) (hs : CondSilent rx t) : AllGrammatical t := by
  obtain ⟨hB, hE, hA, hN, hO⟩ := (condSilent_iff hrx h ho hc).1 hs
  intro k v hat
  have : ∃ f u, v = .dict [(.str f, u)] ∧ f ∈ grammarFunctions := by
    by_contra hn
    by_cases hv : ∃ x u, v = .dict [(x, u)]
    · obtain ⟨x, u, rfl⟩ := hv
      exact hB _ (.function hat (fun f hf e => hn ⟨f, u, by rw [e], hf⟩))
    · exact hB _ (.form hat (fun x u e => hv ⟨x, u, e⟩))
  obtain ⟨f, u, rfl, hf⟩ := this
  exact grammatical_of hE hA hN hO hT hc hP _ f u [k] (Nat.lt_succ_self _) hf hat

theorem inner_calls {t : Val} {v : Val} (hg : Grammatical t v) :
    ∀ {q : Path}, At t (.str "Conditions" :: q) v → ∀ {q' : Path} {fn : String} {w : Val}, fn ∈ logicalFunctions → At v (q' ++ [.str fn]) w →
      Grammatical t (.dict [(.str fn, w)]) := by
  have step : ∀ {f : String} {vs : List Val} {q : Path}, Grammatical t (.dict [(.str f, .list vs)]) →
      At t (.str "Conditions" :: q) (.dict [(.str f, .list vs)]) →
      (∀ v ∈ vs, ∀ {q : Path}, At t (.str "Conditions" :: q) v → ∀ {q' : Path} {fn : String} {w : Val}, fn ∈ logicalFunctions →
        At v (q' ++ [.str fn]) w → Grammatical t (.dict [(.str fn, w)])) →
      ∀ {q' : Path} {fn : String} {w : Val}, fn ∈ logicalFunctions → At (.dict [(.str f, .list vs)]) (q' ++ [.str fn]) w →
        Grammatical t (.dict [(.str fn, w)]) := by
    intro f vs q hg hat ih q' fn w hfn h
    cases q' with
    | nil =>
      rw [List.nil_append] at h
      cases h with
      | key hm h =>
        cases h
        simp only [List.mem_cons, List.not_mem_nil, or_false] at hm
        obtain ⟨h1, h2⟩ := Prod.mk.inj hm
        rw [h1, h2]
        exact hg
    | cons k q' =>
      rw [List.cons_append] at h
      cases h with
      | key hm h =>
        simp only [List.mem_cons, List.not_mem_nil, or_false] at hm
        obtain ⟨rfl, rfl⟩ := Prod.mk.inj hm
        cases q' with
        | nil => rw [List.nil_append] at h; cases h
        | cons k q' =>
          rw [List.cons_append] at h
          cases h with
          | idx hi h =>
            rename_i i x
            refine ih x (List.mem_of_getElem? hi) (q := q ++ [.str f, .int i]) ?_ hfn h
            have := at_append hat (.key List.mem_cons_self (.idx hi .here))
            simpa using this
  induction hg with
  | equals ha hb =>
    rename_i a b
    intro q hat q' fn w hfn h
    refine step (.equals ha hb) hat ?_ hfn h
    intro v hv p hp q'' fn' w' hfn' h'
    obtain ⟨i, hi⟩ := List.mem_iff_getElem?.1 hv
    have hgo : GoodOperand t v := by
      simp only [List.mem_cons, List.not_mem_nil, or_false] at hv
      rcases hv with rfl | rfl
      · exact ha
      · exact hb
    rcases hgo with hl | ⟨k, u, rfl, _, _, hno⟩
    · cases v <;> first | (cases q'' <;> cases h' <;> done) | exact hl.elim
    · exact absurd h' (hno q'' fn' hfn' w')
  | and h1 h2 hv ih => intro q hat q' fn w hfn h; exact step (.and h1 h2 hv) hat (fun v hm _ hp => ih v hm hp) hfn h
  | or h1 h2 hv ih => intro q hat q' fn w hfn h; exact step (.or h1 h2 hv) hat (fun v hm _ hp => ih v hm hp) hfn h
  | not hv ih =>
    intro q hat q' fn w hfn h
    refine step (.not hv) hat ?_ hfn h
    intro v hm _ hp
    simp only [List.mem_cons, List.not_mem_nil, or_false] at hm
    subst hm
    exact ih hp
  | named =>
    intro q hat q' fn w hfn h
    exfalso
    cases q' with
    | nil =>
      rw [List.nil_append] at h
      cases h with
      | key hm h =>
        simp only [List.mem_cons, List.not_mem_nil, or_false] at hm
        have := (Prod.mk.inj hm).1
        injection this with this
        subst this
        revert hfn
        decide
    | cons k q' =>
      rw [List.cons_append] at h
      cases h with
      | key hm h =>
        simp only [List.mem_cons, List.not_mem_nil, or_false] at hm
        have := (Prod.mk.inj hm).2
        subst this
        cases q' <;> cases h

theorem all_calls {t : Val} (hN : NamesClear t) (hg : AllGrammatical t) {q : Path} {fn : String} {w : Val} (hfn : fn ∈ logicalFunctions)
    (hat : At t (.str "Conditions" :: q ++ [.str fn]) w) : Grammatical t (.dict [(.str fn, w)]) := by
  cases q with
  | nil => exact absurd hat (hN fn hfn w)
  | cons k q =>
    have : At t ([.str "Conditions", k] ++ (q ++ [.str fn])) w := by simpa using hat
    obtain ⟨u, h1, h2⟩ := at_split this
    exact inner_calls (hg k u h1) h1 hfn h2

theorem grammatical_form {t v : Val} (h : Grammatical t v) : ∃ f u, v = .dict [(.str f, u)] ∧ f ∈ grammarFunctions := by
  cases h with
  | equals => exact ⟨_, _, rfl, by decide⟩
  | and => exact ⟨_, _, rfl, by decide⟩
  | or => exact ⟨_, _, rfl, by decide⟩
  | not => exact ⟨_, _, rfl, by decide⟩
  | named => exact ⟨_, _, rfl, by decide⟩

theorem grammatical_list {t w : Val} {fn : String} (h : Grammatical t (.dict [(.str fn, w)])) (hfn : fn ∈ ["Fn::And", "Fn::Or", "Fn::Not"]) :
    ∃ xs, w = .list xs ∧ SizeOk fn xs.length ∧ ∀ v ∈ xs, Grammatical t v := by
  cases h with
  | equals => exact absurd hfn (by decide)
  | and h1 h2 h3 => exact ⟨_, rfl, ⟨by simp, fun _ => ⟨h1, h2⟩⟩, h3⟩
  | or h1 h2 h3 => exact ⟨_, rfl, ⟨by simp, fun _ => ⟨h1, h2⟩⟩, h3⟩
  | not h1 => exact ⟨_, rfl, ⟨by simp, by simp⟩, by simpa using h1⟩
  | named => exact absurd hfn (by decide)

theorem grammatical_equals {t w : Val} (h : Grammatical t (.dict [(.str "Fn::Equals", w)])) :
    ∃ a b, w = .list [a, b] ∧ GoodOperand t a ∧ GoodOperand t b := by
  generalize hv : Val.dict [(.str "Fn::Equals", w)] = v at h
  cases h with
  | equals ha hb => simp at hv; exact ⟨_, _, hv, ha, hb⟩
  | _ => simp at hv

/-- **C67** The rules are silent if every condition follows the grammar, and no condition is named like a
logical function. -/
theorem C67_complete_partial {rx : String → String → PyM Bool} {t : Val} (hrx : MatchesPrefixes rx) (h : SectionsOk t)
    (ho : CondsObject t) (hc : ClearRefs t) (hN : NamesClear t) (hg : AllGrammatical t) : CondSilent rx t := by
  rw [condSilent_iff hrx h ho hc]
  have hlist : ∀ fn ∈ ["Fn::And", "Fn::Or", "Fn::Not"], ∀ p, ¬ BadList t fn p := by
    intro fn hfn p hb
    have hfn' : fn ∈ logicalFunctions := by
      simp only [logicalFunctions, List.mem_cons, List.not_mem_nil, or_false] at hfn ⊢
      tauto
    have hcall : ∀ {q xs}, At t (.str "Conditions" :: q ++ [.str fn]) (.list xs) → ∀ {i : Nat} {v}, xs[i]? = some v →
        ∃ f u, v = .dict [(.str f, u)] ∧ f ∈ grammarFunctions := by
      intro q xs hat i v hi
      obtain ⟨xs', e, _, h3⟩ := grammatical_list (all_calls hN hg hfn' hat) hfn
      injection e with e
      subst e
      exact grammatical_form (h3 v (List.mem_of_getElem? hi))
    cases hb with
    | size hat hs =>
      obtain ⟨xs, rfl, h2, _⟩ := grammatical_list (all_calls hN hg hfn' hat) hfn
      exact hs xs rfl h2
    | form hat hs hi hf =>
      obtain ⟨f, u, rfl, _⟩ := hcall hat hi
      exact hf _ _ rfl
    | function hat hs hi hf =>
      obtain ⟨f, u, e, h2⟩ := hcall hat hi
      simp at e
      exact hf f h2 e.1
  refine ⟨?_, ?_, hlist _ (by decide), hlist _ (by decide), hlist _ (by decide)⟩
  · intro p hb
    cases hb with
    | form hat hf =>
      obtain ⟨f, u, rfl, _⟩ := grammatical_form (hg _ _ hat)
      exact hf _ _ rfl
    | function hat hf =>
      obtain ⟨f, u, e, h2⟩ := grammatical_form (hg _ _ hat)
      simp at e
      exact hf f h2 e.1
  · intro p hb
    have hop : ∀ {q a b}, At t (.str "Conditions" :: q ++ [.str "Fn::Equals"]) (.list [a, b]) → ∀ {i : Nat} {v},
        [a, b][i]? = some v → GoodOperand t v := by
      intro q a b hat i v hi
      obtain ⟨a', b', e, ha, hb⟩ := grammatical_equals (all_calls hN hg (by decide) hat)
      simp at e
      obtain ⟨rfl, rfl⟩ := e
      have := List.mem_of_getElem? hi
      simp only [List.mem_cons, List.not_mem_nil, or_false] at this
      rcases this with rfl | rfl
      · exact ha
      · exact hb
    cases hb with
    | size hat hs =>
      obtain ⟨a', b', e, ha, hb⟩ := grammatical_equals (all_calls hN hg (by decide) hat)
      exact hs _ _ e
    | form hat hi h1 h2 =>
      rcases hop hat hi with h3 | ⟨k, w, rfl, _⟩
      · exact h1 h3
      · exact h2 _ _ rfl
    | function hat hi h1 =>
      rcases hop hat hi with h3 | ⟨k, w, e, h3, _⟩
      · exact h3
      · simp at e
        exact h1 k h3 e.1
    | listRef hat hi h1 =>
      rcases hop hat hi with h3 | ⟨k, w, e, h3, h4⟩
      · exact h3
      · simp at e
        obtain ⟨s', e2, h5⟩ := h4.1 e.1.symm
        rw [e2] at e
        simp at e
        exact h5 (e.2 ▸ h1)

/-! ### Truth values -/

theorem operand_det {σ : Val → String} {v : Val} {x y : String} (h : Operand σ v x) (h' : Operand σ v y) : x = y := by
  cases h with
  | expr =>
    cases h' with
    | expr => rfl
    | lit h => simp [litText] at h
  | lit h =>
    cases h' with
    | expr => simp [litText] at h
    | lit h2 => rw [h] at h2; injection h2

theorem evals_det {conds : List (Key × Val)} {σ : Val → String} {v : Val} {b : Bool} (h : Evals AnyEquals conds σ v b) :
    ∀ {b'}, Evals AnyEquals conds σ v b' → b = b' := by
  induction h with
  | equals _ ha hb =>
    intro b' h'
    generalize hv : Val.dict _ = u at h'
    cases h' with
    | equals _ ha' hb' =>
      simp at hv
      obtain ⟨rfl, rfl⟩ := hv
      rw [operand_det ha ha', operand_det hb hb']
    | _ => simp at hv
  | and hne hv ih =>
    rename_i vs f
    intro b' h'
    generalize hu : Val.dict _ = u at h'
    cases h' with
    | and _ hv' =>
      rename_i vs' f' _
      simp at hu
      subst hu
      have : ∀ v ∈ vs, f v = f' v := fun v hm => ih v hm (hv' v hm)
      rw [Bool.eq_iff_iff, List.all_eq_true, List.all_eq_true]
      exact ⟨fun h v hm => this v hm ▸ h v hm, fun h v hm => (this v hm).symm ▸ h v hm⟩
    | _ => simp at hu
  | or hne hv ih =>
    rename_i vs f
    intro b' h'
    generalize hu : Val.dict _ = u at h'
    cases h' with
    | or _ hv' =>
      rename_i vs' f' _
      simp at hu
      subst hu
      have : ∀ v ∈ vs, f v = f' v := fun v hm => ih v hm (hv' v hm)
      rw [Bool.eq_iff_iff, List.any_eq_true, List.any_eq_true]
      exact ⟨fun ⟨v, hm, h⟩ => ⟨v, hm, this v hm ▸ h⟩, fun ⟨v, hm, h⟩ => ⟨v, hm, (this v hm).symm ▸ h⟩⟩
    | _ => simp at hu
  | not _ ih =>
    intro b' h'
    generalize hu : Val.dict _ = u at h'
    cases h' with
    | not h2 =>
      simp at hu
      subst hu
      rw [ih h2]
    | _ => simp at hu
  | named hl _ ih =>
    intro b' h'
    generalize hu : Val.dict _ = u at h'
    cases h' with
    | named hl' h2 =>
      simp at hu
      subst hu
      rw [hl] at hl'
      injection hl' with hl'
      subst hl'
      exact ih h2
    | _ => simp at hu

/-- The full C68 statement: where the rules E8001 to E8006 are silent, every condition has exactly one truth value whatever
the values of the functions are. -/
def C68_statement : Prop := ∀ (rx : String → String → PyM Bool) (kvs : List (Key × Val)), MatchesPrefixes rx → SectionsOk (.dict kvs) →
  CondShape (.dict kvs) → CondSilent rx (.dict kvs) → undefinedConditions (.dict kvs) (.dict []) = .ok [] →
  ∀ c v, At (.dict kvs) [.str "Conditions", c] v → ∀ σ, ∃ b, Evals AnyEquals (conditionsOf kvs) σ v b ∧
    ∀ b', Evals AnyEquals (conditionsOf kvs) σ v b' → b' = b

/-- **C68** where the rules E8001 to E8006 are silent, every condition has exactly one truth value whatever the values of the
functions are, if the conditions do not use each other in a circle, no fractional number is compared, arguments of `Condition`
are texts, references are texts the table of references finds, and no logical functions stand inside operands. -/
theorem C68_truth_partial {rx : String → String → PyM Bool} {kvs : List (Key × Val)} (hrx : MatchesPrefixes rx)
    (h : SectionsOk (.dict kvs)) (hsh : CondShape (.dict kvs)) (hc : ClearRefs (.dict kvs)) (hT : TextNames (.dict kvs))
    (hP : PlainOperands (.dict kvs)) (hacy : AcyclicConds (.dict kvs)) (hflt : NoFractions (.dict kvs)) (hs : CondSilent rx (.dict kvs))
    (hu : undefinedConditions (.dict kvs) (.dict []) = .ok []) (c : Key) (v : Val) (hat : At (.dict kvs) [.str "Conditions", c] v)
    (σ : Val → String) : ∃ b, Evals AnyEquals (conditionsOf kvs) σ v b ∧
      ∀ b', Evals AnyEquals (conditionsOf kvs) σ v b' → b' = b := by
  have ho : CondsObject (.dict kvs) := fun v hv => by
    obtain ⟨cs, e, _⟩ := hsh.conditions v hv
    exact ⟨cs, e⟩
  have hg := C67_sound_partial hrx h ho hc hT hP hs
  suffices hx : ∃ b, Evals AnyEquals (conditionsOf kvs) σ v b by
    obtain ⟨b, hb⟩ := hx
    exact ⟨b, hb, fun b' hb' => (evals_det hb hb').symm⟩
  obtain ⟨rank, hrank⟩ := hacy
  have hlook : ∀ q s, At (.dict kvs) (.str "Conditions" :: q ++ [.str "Condition"]) (.str s) →
      ∃ v, At (.dict kvs) [.str "Conditions", .str s] v ∧ dlookup (Key.str s) (conditionsOf kvs) = some v := by
    intro q s hq
    obtain ⟨out, h1, _, h2, _⟩ := C54_names_partial _ h.wf hsh
    rw [hu] at h1
    injection h1 with h1
    subst h1
    have hd : DefinesCond (.dict kvs) s := by
      by_contra hn
      obtain ⟨p, hp⟩ := (h2 s).2 ⟨⟨_, .cond hq⟩, hn⟩
      exact List.not_mem_nil hp
    obtain ⟨v, hv⟩ := hd
    refine ⟨v, hv, ?_⟩
    obtain ⟨cs, hcs, hv'⟩ := at_cons.1 hv
    obtain ⟨cs, rfl⟩ := ho _ hcs
    have hwc := at_wf hcs h.wf
    cases hcs with
    | key hm hx =>
      cases hx
      cases hv' with
      | key hm' hx =>
        cases hx
        unfold conditionsOf
        rw [dlookup_of_mem h.wf.1 hm]
        exact dlookup_of_mem hwc.1 hm'
  have main : ∀ n c v, rank c = n → At (.dict kvs) [.str "Conditions", c] v → ∃ b, Evals AnyEquals (conditionsOf kvs) σ v b := by
    intro n
    induction n using Nat.strong_induction_on with
    | _ n ih =>
      intro c v hr hat
      have inner : ∀ u, Grammatical (.dict kvs) u → ∀ q, At (.dict kvs) (.str "Conditions" :: c :: q) u →
          ∃ b, Evals AnyEquals (conditionsOf kvs) σ u b := by
        have step : ∀ {f : String} {vs : List Val} {q : Path}, At (.dict kvs) (.str "Conditions" :: c :: q) (.dict [(.str f, .list vs)]) →
            (∀ v ∈ vs, ∀ q, At (.dict kvs) (.str "Conditions" :: c :: q) v → ∃ b, Evals AnyEquals (conditionsOf kvs) σ v b) →
            ∃ g : Val → Bool, ∀ v ∈ vs, Evals AnyEquals (conditionsOf kvs) σ v (g v) := by
          intro f vs q hat hv
          have : ∀ v, ∃ b, v ∈ vs → Evals AnyEquals (conditionsOf kvs) σ v b := by
            intro v
            by_cases hm : v ∈ vs
            · obtain ⟨i, hi⟩ := List.mem_iff_getElem?.1 hm
              obtain ⟨b, hb⟩ := hv v hm (q ++ [.str f, .int i]) (by
                have := at_append hat (.key List.mem_cons_self (.idx hi .here))
                simpa using this)
              exact ⟨b, fun _ => hb⟩
            · exact ⟨true, fun h => absurd h hm⟩
          exact ⟨fun v => (this v).choose, fun v hm => (this v).choose_spec hm⟩
        intro u hu
        induction hu with
        | equals ha hb =>
          rename_i a b
          intro q hat
          have hop : ∀ (i : Nat) (v : Val), [a, b][i]? = some v → GoodOperand (.dict kvs) v → ∃ x, Operand σ v x := by
            intro i v hi hgo
            rcases hgo with hl | ⟨k, w, rfl, _⟩
            · cases v with
              | flt s =>
                refine absurd ?_ (hflt (c :: q) i s)
                have := at_append hat (.key List.mem_cons_self (.idx hi .here))
                simpa using this
              | str s => exact ⟨_, .lit rfl⟩
              | int s => exact ⟨_, .lit rfl⟩
              | bool s => exact ⟨_, .lit rfl⟩
              | _ => exact absurd hl (by simp [Literal])
            · exact ⟨_, .expr⟩
          obtain ⟨x, hx⟩ := hop 0 a rfl ha
          obtain ⟨y, hy⟩ := hop 1 b rfl hb
          exact ⟨_, .equals trivial hx hy⟩
        | and h1 h2 hv ih =>
          intro q hat
          obtain ⟨g, hg⟩ := step hat ih
          exact ⟨_, .and (by rintro rfl; simp at h1) hg⟩
        | or h1 h2 hv ih =>
          intro q hat
          obtain ⟨g, hg⟩ := step hat ih
          exact ⟨_, .or (by rintro rfl; simp at h1) hg⟩
        | not hv ih =>
          intro q hat
          obtain ⟨b, hb⟩ := ih (q ++ [.str "Fn::Not", .int 0]) (by
            have := at_append hat (.key List.mem_cons_self (.idx (i := 0) rfl .here))
            simpa using this)
          exact ⟨_, .not hb⟩
        | named =>
          rename_i s
          intro q hat
          have hat' : At (.dict kvs) (.str "Conditions" :: c :: q ++ [.str "Condition"]) (.str s) := by
            have := at_append hat (.key List.mem_cons_self .here)
            simpa using this
          obtain ⟨v', h1, h2⟩ := hlook (c :: q) s hat'
          obtain ⟨b, hb⟩ := ih (rank (.str s)) (hr ▸ hrank c s ⟨q, hat'⟩) (.str s) v' rfl h1
          exact ⟨b, .named h2 hb⟩
      exact inner v (hg c v hat) [] hat
  exact main _ c v rfl hat

/-! ### Witnesses -/

/-- a template with one parameter and the given conditions -/
def exConds (cs : List (Key × Val)) : Val := .dict [
  (.str "Parameters", .dict [(.str "Env", .dict [(.str "Type", .str "String")])]), (.str "Conditions", .dict cs)]

theorem exConds_ok {cs : List (Key × Val)} (hw : (Val.dict cs).WF) : SectionsOk (exConds cs) := by
  refine ⟨by simp [exConds, Val.WF, Val.WFDict] at hw ⊢; exact hw, ⟨_, rfl⟩, ?_, ?_⟩
  · intro s hs
    rw [exConds, at_dict_one] at hs
    simp only [List.mem_cons, Prod.mk.injEq, Key.str.injEq, List.not_mem_nil, or_false] at hs
    rcases hs with ⟨_, rfl⟩ | ⟨h, _⟩
    · refine ⟨_, rfl, ?_⟩
      intro kv hkv
      simp only [List.mem_cons, List.not_mem_nil, or_false] at hkv
      subst hkv
      exact ⟨⟨"Env", rfl, by unfold PlainName; decide⟩, _, rfl⟩
    · simp at h
  · intro s hs
    rw [exConds, at_dict_one] at hs
    simp at hs

theorem exConds_obj {cs : List (Key × Val)} : CondsObject (exConds cs) := by
  intro s hs
  rw [exConds, at_dict_one] at hs
  simp at hs
  exact ⟨cs, hs⟩

theorem at_exConds {cs : List (Key × Val)} {k : Key} {v : Val} : At (exConds cs) [.str "Conditions", k] v ↔ (k, v) ∈ cs := by
  rw [at_cons]
  constructor
  · rintro ⟨c, h1, h2⟩
    rw [exConds, at_dict_one] at h1
    simp at h1
    subst h1
    exact at_dict_one.1 h2
  · intro h
    exact ⟨.dict cs, at_dict_one.2 (by simp), at_dict_one.2 h⟩

theorem exConds_shape {cs : List (Key × Val)} (hw : (Val.dict cs).WF) (hk : ∀ k w, (k, w) ∈ cs → ∃ s, k = .str s)
    (hi : searchDeepKeys "Fn::If" (exConds cs) (.dict []) = []) : CondShape (exConds cs) := by
  refine ⟨⟨_, rfl⟩, ?_, ?_, ?_, ?_, ?_⟩
  · intro p v h
    have := ((C27_search_partial "Fn::If" _ (exConds_ok hw).wf).1 (p ++ [.str "Fn::If"]) v).2 ⟨h, p, rfl⟩
    rw [hi] at this
    cases this
  · intro v h
    rw [exConds, at_dict_one] at h
    simp at h
    exact ⟨cs, h, hk⟩
  · intro v h
    rw [exConds, at_dict_one] at h
    simp at h
  · intro r v h
    rw [at_cons] at h
    obtain ⟨c, h, _⟩ := h
    rw [exConds, at_dict_one] at h
    simp at h
  · intro v h
    rw [exConds, at_dict_one] at h
    simp at h

/-- two conditions, the second negates the first -/
def exGoodConds : List (Key × Val) := [
  (.str "Prod", .dict [(.str "Fn::Equals", .list [.dict [(.str "Ref", .str "Env")], .str "prod"])]),
  (.str "Test", .dict [(.str "Fn::Not", .list [.dict [(.str "Condition", .str "Prod")]])])]

theorem exGood_wf : (Val.dict exGoodConds).WF := by simp [exGoodConds, Val.WF, Val.WFDict, Val.WFList]

theorem exGood_find {key : String} {q : Path} {v : Val} (h : At (exConds exGoodConds) (q ++ [.str key]) v) :
    (q ++ [.str key], v) ∈ searchDeepKeys key (exConds exGoodConds) (.dict []) :=
  ((C27_search_partial key _ (exConds_ok exGood_wf).wf).1 _ v).2 ⟨h, q, rfl⟩

theorem exGood_clear : ClearRefs (exConds exGoodConds) := by
  intro q i v h
  have h' : At (exConds exGoodConds) ((.str "Conditions" :: q ++ [.str "Fn::Equals", .int i]) ++ [.str "Ref"]) v := by simpa using h
  have := exGood_find h'
  have e : searchDeepKeys "Ref" (exConds exGoodConds) (.dict []) =
    [([.str "Conditions", .str "Prod", .str "Fn::Equals", .int 0, .str "Ref"], .str "Env")] := by decide
  rw [e] at this
  simp only [List.mem_cons, List.not_mem_nil, or_false] at this
  have hv := (Prod.mk.inj this).2
  subst hv
  have hw := (exConds_ok exGood_wf).wf
  have hno : ∀ p v, ¬ At (exConds exGoodConds) (.str "Resources" :: p) v := by
    intro p v h
    rw [at_cons] at h
    obtain ⟨c, h, _⟩ := h
    rw [exConds, at_dict_one] at h
    simp at h
  refine ⟨"Env", rfl, ?_, ?_, ?_⟩
  · intro n _ _
    have ha : At (exConds exGoodConds) [.str "Parameters", .str "Env", .str "Type"] (.str "String") := (follow_at hw).2 rfl
    exact .parameter ha
  · rintro _ m ⟨ty, hm, _⟩
    exact absurd hm (hno _ _)
  · intro ty _
    exact ⟨fun x hx => absurd hx (hno _ _), by decide⟩

theorem exGood_texts : TextNames (exConds exGoodConds) := by
  intro q v h
  have := exGood_find h
  have e : searchDeepKeys "Condition" (exConds exGoodConds) (.dict []) =
    [([.str "Conditions", .str "Test", .str "Fn::Not", .int 0, .str "Condition"], .str "Prod")] := by decide
  rw [e] at this
  simp only [List.mem_cons, List.not_mem_nil, or_false] at this
  exact ⟨_, (Prod.mk.inj this).2⟩

theorem exGood_plain : PlainOperands (exConds exGoodConds) := by
  intro q i q' fn v hfn h
  have := exGood_find h
  simp only [logicalFunctions, List.mem_cons, List.not_mem_nil, or_false] at hfn
  have e1 : searchDeepKeys "Fn::And" (exConds exGoodConds) (.dict []) = [] := by decide
  have e2 : searchDeepKeys "Fn::Or" (exConds exGoodConds) (.dict []) = [] := by decide
  have e3 : searchDeepKeys "Fn::Not" (exConds exGoodConds) (.dict []) =
    [([.str "Conditions", .str "Test", .str "Fn::Not"], .list [.dict [(.str "Condition", .str "Prod")]])] := by decide
  have e4 : searchDeepKeys "Fn::Equals" (exConds exGoodConds) (.dict []) =
    [([.str "Conditions", .str "Prod", .str "Fn::Equals"], .list [.dict [(.str "Ref", .str "Env")], .str "prod"])] := by decide
  rcases hfn with rfl | rfl | rfl | rfl
  · rw [e1] at this; cases this
  · rw [e2] at this; cases this
  · rw [e3] at this
    simp only [List.mem_cons, List.not_mem_nil, or_false] at this
    have := congrArg List.length (Prod.mk.inj this).1
    simp at this
    omega
  · rw [e4] at this
    simp only [List.mem_cons, List.not_mem_nil, or_false] at this
    have := congrArg List.length (Prod.mk.inj this).1
    simp at this
    omega

theorem exGood_grammatical : AllGrammatical (exConds exGoodConds) := by
  refine C67_sound_partial exRx_ok (exConds_ok exGood_wf) exConds_obj exGood_clear exGood_texts exGood_plain ?_
  exact ⟨by decide, by decide, by decide, by decide, by decide⟩

/-- the hypotheses of `C67_sound_partial` and `C67_complete_partial` are met -/
example : CondSilent exRx (exConds exGoodConds) := by
  refine C67_complete_partial exRx_ok (exConds_ok exGood_wf) exConds_obj exGood_clear ?_ exGood_grammatical
  intro fn hfn v h
  rw [at_exConds] at h
  simp only [exGoodConds, List.mem_cons, Prod.mk.injEq, Key.str.injEq, List.not_mem_nil, or_false] at h
  rcases h with ⟨rfl, _⟩ | ⟨rfl, _⟩ <;> revert hfn <;> decide

/-- the rules report what is wrong -/
example : equalsRule exRx (exConds [(.str "A", .dict [(.str "Fn::Equals", .list [.list [], .dict [(.str "Fn::GetAtt", .none)]])])]) (.dict []) =
    .ok [[.str "Conditions", .str "A", .str "Fn::Equals", .int 0],
      [.str "Conditions", .str "A", .str "Fn::Equals", .int 1, .str "Fn::GetAtt"]] := by decide

example : conditionListRule "Fn::Not" (exConds [(.str "A", .dict [(.str "Fn::Not", .list [.str "B"])])]) (.dict []) =
    [[.str "Conditions", .str "A", .str "Fn::Not", .int 0]] := by decide

/-- A number as argument of `Condition` is not reported. -/
theorem C67_number_violated : ¬ C67_statement := by
  intro h
  have hw : (Val.dict [(.str "A", .dict [(.str "Condition", .int 5)])]).WF := by simp [Val.WF, Val.WFDict]
  have := (h exRx _ exRx_ok (exConds_ok hw) exConds_obj).1 ⟨by decide, by decide, by decide, by decide, by decide⟩
    (.str "A") _ (at_exConds.2 List.mem_cons_self)
  generalize hv : Val.dict [(.str "Condition", .int 5)] = v at this
  cases this <;> simp at hv

/-- A condition named like a function is taken for a call of the function. -/
theorem C67_name_violated : ¬ C67_statement := by
  intro h
  have hw : (Val.dict [(.str "Fn::Not", .dict [(.str "Condition", .str "Fn::Not")])]).WF := by simp [Val.WF, Val.WFDict]
  have := (h exRx _ exRx_ok (exConds_ok hw) exConds_obj).2 (by
    intro k v hv
    rw [at_exConds] at hv
    simp only [List.mem_cons, List.not_mem_nil, or_false] at hv
    have := (Prod.mk.inj hv).2
    subst this
    exact .named)
  exact absurd this.not (by decide)

/-- A logical function inside an operand is not reported. -/
theorem C67_operand_violated : ¬ C67_statement := by
  intro h
  have hw : (Val.dict [(.str "A", .dict [(.str "Fn::Equals", .list [.dict [(.str "Fn::Select", .list [.int 0,
    .dict [(.str "Fn::Equals", .list [.str "a", .str "b"])]])], .str "a"])])]).WF := by simp [Val.WF, Val.WFDict, Val.WFList]
  have := (h exRx _ exRx_ok (exConds_ok hw) exConds_obj).1 ⟨by decide, by decide, by decide, by decide, by decide⟩
    (.str "A") _ (at_exConds.2 List.mem_cons_self)
  obtain ⟨a, b, e, ha, _⟩ := grammatical_equals this
  simp at e
  rw [← e.1] at ha
  rcases ha with ha | ⟨k, w, _, _, _, h4⟩
  · exact ha
  · exact h4 [.str "Fn::Select", .int 1] "Fn::Equals" (by decide) _ (.key List.mem_cons_self (.idx (i := 1) rfl (.key List.mem_cons_self .here)))

/-- A reference to a list of names makes rule E8003 raise. -/
theorem C67_ref_raises : equalsRule exRx (exConds [(.str "A", .dict [(.str "Fn::Equals", .list [.dict [(.str "Ref", .list [])], .str "a"])])])
    (.dict []) = .error (.typeError "expected string or bytes-like object") := by decide

theorem exGood_acyclic : AcyclicConds (exConds exGoodConds) := by
  refine ⟨fun k => if k = .str "Test" then 1 else 0, ?_⟩
  rintro c d ⟨q, h⟩
  have := exGood_find h
  have e : searchDeepKeys "Condition" (exConds exGoodConds) (.dict []) =
    [([.str "Conditions", .str "Test", .str "Fn::Not", .int 0, .str "Condition"], .str "Prod")] := by decide
  rw [e] at this
  simp at this
  obtain ⟨⟨rfl, _⟩, rfl⟩ := this
  simp

theorem exGood_fractions : NoFractions (exConds exGoodConds) := by
  intro q i x h
  have h' : At (exConds exGoodConds) ((.str "Conditions" :: q ++ [.str "Fn::Equals"]) ++ [.int i]) (.flt x) := by simpa using h
  obtain ⟨u, h1, h2⟩ := at_split h'
  have := exGood_find h1
  have e4 : searchDeepKeys "Fn::Equals" (exConds exGoodConds) (.dict []) =
    [([.str "Conditions", .str "Prod", .str "Fn::Equals"], .list [.dict [(.str "Ref", .str "Env")], .str "prod"])] := by decide
  rw [e4] at this
  simp only [List.mem_cons, List.not_mem_nil, or_false] at this
  have hu := (Prod.mk.inj this).2
  subst hu
  cases h2 with
  | idx hi h3 =>
    cases h3
    have := List.mem_of_getElem? hi
    simp at this

theorem exGood_shape : CondShape (exConds exGoodConds) :=
  exConds_shape exGood_wf
      (by
        intro k w hm
        simp only [exGoodConds, List.mem_cons, Prod.mk.injEq, List.not_mem_nil, or_false] at hm
        rcases hm with ⟨rfl, _⟩ | ⟨rfl, _⟩
        · exact ⟨_, rfl⟩
        · exact ⟨_, rfl⟩) (by decide)

/-- the hypotheses of `C68_truth_partial` are met -/
example (σ : Val → String) : ∃ b, Evals AnyEquals exGoodConds σ (.dict [(.str "Fn::Not", .list [.dict [(.str "Condition", .str "Prod")]])]) b := by
  obtain ⟨b, hb, _⟩ := C68_truth_partial exRx_ok (exConds_ok exGood_wf) exGood_shape
    exGood_clear exGood_texts exGood_plain exGood_acyclic exGood_fractions ⟨by decide, by decide, by decide, by decide, by decide⟩ (by decide)
    (.str "Test") _ (at_exConds.2 (by simp [exGoodConds]; rfl)) σ
  exact ⟨b, hb⟩

/-- A condition that negates itself is reported by none of the rules, and has no truth value. -/
theorem C68_circle_violated : ¬ C68_statement := by
  intro h
  have hw : (Val.dict [(.str "A", .dict [(.str "Fn::Not", .list [.dict [(.str "Condition", .str "A")]])])]).WF := by
    simp [Val.WF, Val.WFDict, Val.WFList]
  obtain ⟨b, hb, _⟩ := h exRx _ exRx_ok (exConds_ok hw) (exConds_shape hw (by simp) (by decide))
    ⟨by decide, by decide, by decide, by decide, by decide⟩ (by decide)
    (.str "A") _ (at_exConds.2 List.mem_cons_self) (fun _ => "")
  have key : ∀ v b, Evals AnyEquals [(.str "A", .dict [(.str "Fn::Not", .list [.dict [(.str "Condition", .str "A")]])])] (fun _ => "") v b →
      v ≠ .dict [(.str "Fn::Not", .list [.dict [(.str "Condition", .str "A")]])] ∧ v ≠ .dict [(.str "Condition", .str "A")] := by
    intro v b h
    induction h with
    | equals => simp
    | and => simp
    | or => simp
    | not _ ih =>
      refine ⟨?_, by simp⟩
      intro e
      simp at e
      exact ih.2 e
    | named hl _ ih =>
      refine ⟨by simp, ?_⟩
      intro e
      simp at e
      subst e
      simp [dlookup] at hl
      exact ih.1 hl.symm
  exact (key _ _ hb).1 rfl

end CfnLint
