import Verif.Lemmas.EachDeclared
/-
Property C81: values of properties are among those the specification allows: allowed texts, patterns, lengths and ranges of numbers.
-/
namespace CfnLint
open Spec

theorem isDynamic_iff {s : String} : isDynamic s = true ↔ HasResolve s := by
  unfold isDynamic HasResolve
  rw [decide_eq_true_iff]
  constructor
  · rintro ⟨a, b, h⟩
    exact ⟨a, b, by rw [← h]; simp⟩
  · rintro ⟨a, b, h⟩
    exact ⟨a, b, by rw [h]; simp⟩

theorem strOf_eq (E : PyText) (v : Val) : strOf E v = valueText E v := by
  cases v with
  | bool b => cases b <;> rfl
  | _ => rfl

theorem pyStr_scalar (E : PyText) {v : Val} (h : Scalar v) : pyStr v = valueText E v := by
  cases v with
  | bool b => cases b <;> rfl
  | list xs => exact absurd rfl (h.2.1 _)
  | dict kvs => exact absurd rfl (h.2.2 _)
  | _ => rfl

theorem mem_here {c : Prop} [Decidable c] {p m : Path} : m ∈ (if c then [] else [p]) ↔ m = p ∧ ¬ c := by
  by_cases h : c <;> simp [h]

theorem allowedCheck_iff {E : PyText} {d : ValueRow} {vt : ValueType} (hd : d.valueType = some vt) (u : Val) (p m : Path) :
    m ∈ allowedCheck E vt u p ↔ m = p ∧ NotAllowed E d u := by
  unfold allowedCheck NotAllowed
  rw [strOf_eq]
  by_cases h1 : vt.allowed.isEmpty = true
  · rw [if_pos h1]
    simp only [List.not_mem_nil, false_iff]
    rintro ⟨-, vt', e, hne, -⟩
    rw [hd] at e
    cases e
    exact hne (List.isEmpty_iff.1 h1)
  · rw [if_neg h1]
    by_cases h2 : isDynamic (valueText E u) = true
    · rw [if_pos h2]
      simp only [List.not_mem_nil, false_iff]
      rintro ⟨-, vt', e, -, hdyn, -⟩
      exact hdyn (isDynamic_iff.1 h2)
    · rw [if_neg h2, mem_here]
      refine and_congr_right fun _ => ⟨fun h => ⟨vt, hd, fun e => h1 (List.isEmpty_iff.2 e), fun hdyn => h2 (isDynamic_iff.2 hdyn), h⟩, ?_⟩
      rintro ⟨vt', e, -, -, h⟩
      rw [hd] at e
      cases e
      exact h

/-- **C81** What E3030 reports for the objects a value may be: exactly the known values of the declared properties whose text is not allowed
and has no dynamic reference, each at its place. -/
theorem C81_allowed (E : PyText) (n : Nat) {rows : List (String × ValueRow)} {kvs : List (Key × Val)} (path : Path)
    (hrows : (rows.map Prod.fst).Nodup) (hw : (Val.dict kvs).WF) (ho : ∀ q u, Leaf (.dict kvs) q u → ∃ l, u = .dict l)
    (hnull : ∀ q l, Leaf (.dict kvs) q (.dict l) → NoNullProps rows l) :
    Finds (allowedRule E (n + 2) rows (.dict kvs) path) path (ValueFaults rows (NotAllowed E) (.dict kvs)) := by
  have e : allowedRule E (n + 2) rows (.dict kvs) path = eachDeclared rows (byCheck (n + 2) (fun d => d.valueType.map (allowedCheck E))) (.dict kvs) path := by
    unfold allowedRule
    congr
    funext prop d v p
    simp only [byCheck]
    cases d.valueType <;> rfl
  rw [e]
  refine valueRule_finds n (chk := fun d => d.valueType.map (allowedCheck E)) hrows hw ho hnull ?_ ?_
  · intro d u h
    rw [Option.map_eq_none_iff] at h
    rintro ⟨vt, e, -⟩
    rw [h] at e
    cases e
  · intro d g u h p m
    obtain ⟨vt, hd, rfl⟩ := Option.map_eq_some_iff.1 h
    exact allowedCheck_iff hd u p m

theorem patternCheck_iff {E : PyText} {d : ValueRow} {vt : ValueType} (hd : d.valueType = some vt) (u : Val) (p m : Path) :
    m ∈ patternCheck E vt u p ↔ m = p ∧ NoMatch E d u := by
  by_cases hs : Scalar u
  · have e : patternCheck E vt u p = if vt.pattern = "" then [] else if isDynamic (pyStr u) then [] else
        if E.matches_ vt.pattern (pyStr u) then [] else [p] := by
      obtain ⟨h1, h2, h3⟩ := hs
      cases u <;> first | rfl | exact absurd rfl h1 | exact absurd rfl (h2 _) | exact absurd rfl (h3 _)
    rw [e, pyStr_scalar E hs]
    unfold NoMatch
    by_cases h1 : vt.pattern = ""
    · rw [if_pos h1]
      simp only [List.not_mem_nil, false_iff]
      rintro ⟨-, vt', e, hne, -⟩
      rw [hd] at e
      cases e
      exact hne h1
    · rw [if_neg h1]
      by_cases h2 : isDynamic (valueText E u) = true
      · rw [if_pos h2]
        simp only [List.not_mem_nil, false_iff]
        rintro ⟨-, vt', e, -, -, hdyn, -⟩
        exact hdyn (isDynamic_iff.1 h2)
      · rw [if_neg h2, mem_here]
        refine and_congr_right fun _ => ⟨fun h => ⟨vt, hd, h1, hs, fun hdyn => h2 (isDynamic_iff.2 hdyn), by simpa using h⟩, ?_⟩
        rintro ⟨vt', e, -, -, -, h⟩
        rw [hd] at e
        cases e
        simpa using h
  · have e : patternCheck E vt u p = [] := by
      cases u <;> first | rfl | exact absurd (by simp [Scalar]) hs
    rw [e]
    simp only [List.not_mem_nil, false_iff]
    rintro ⟨-, vt', -, -, h, -⟩
    exact hs h

/-- **C81** What E3031 reports: exactly the known texts, numbers and truth values of the declared properties whose text the pattern does not
match and has no dynamic reference, each at its place. -/
theorem C81_pattern (E : PyText) (n : Nat) {rows : List (String × ValueRow)} {kvs : List (Key × Val)} (path : Path)
    (hrows : (rows.map Prod.fst).Nodup) (hw : (Val.dict kvs).WF) (ho : ∀ q u, Leaf (.dict kvs) q u → ∃ l, u = .dict l)
    (hnull : ∀ q l, Leaf (.dict kvs) q (.dict l) → NoNullProps rows l) :
    Finds (patternRule E (n + 2) rows (.dict kvs) path) path (ValueFaults rows (NoMatch E) (.dict kvs)) := by
  have e : patternRule E (n + 2) rows (.dict kvs) path = eachDeclared rows (byCheck (n + 2) (fun d => d.valueType.map (patternCheck E))) (.dict kvs) path := by
    unfold patternRule
    congr
    funext prop d v p
    simp only [byCheck]
    cases d.valueType <;> rfl
  rw [e]
  refine valueRule_finds n (chk := fun d => d.valueType.map (patternCheck E)) hrows hw ho hnull ?_ ?_
  · intro d u h
    rw [Option.map_eq_none_iff] at h
    rintro ⟨vt, e, -⟩
    rw [h] at e
    cases e
  · intro d g u h p m
    obtain ⟨vt, hd, rfl⟩ := Option.map_eq_some_iff.1 h
    exact patternCheck_iff hd u p m

theorem declaresText_iff {d : ValueRow} : (if d.type = some "List" then d.primItem else d.prim) = some "String" ↔ DeclaresText d := by
  unfold DeclaresText
  by_cases h : d.type = some "List" <;> simp [h]

theorem lengthBounds_iff {d : ValueRow} {lo hi : Int} : lengthBounds d = some (lo, hi) ↔
    ∃ vt, d.valueType = some vt ∧ vt.stringMin = some lo ∧ vt.stringMax = some hi ∧ lo ≠ 0 ∧ hi ≠ 0 ∧ DeclaresText d := by
  unfold lengthBounds
  rw [← declaresText_iff]
  cases h1 : d.valueType with
  | none => simp
  | some vt =>
    cases h2 : vt.stringMin with
    | none => simp [h2]
    | some a =>
      cases h3 : vt.stringMax with
      | none => simp [h2, h3]
      | some b =>
        simp only [h2, h3]
        by_cases h : a ≠ 0 ∧ b ≠ 0 ∧ (if d.type = some "List" then d.primItem else d.prim) = some "String"
        · rw [if_pos h]
          simp only [Option.some.injEq, Prod.mk.injEq]
          constructor
          · rintro ⟨rfl, rfl⟩
            exact ⟨vt, rfl, h2, h3, h⟩
          · rintro ⟨_, rfl, e1, e2, -⟩
            rw [h2] at e1
            rw [h3] at e2
            cases e1
            cases e2
            exact ⟨rfl, rfl⟩
        · rw [if_neg h]
          simp only [reduceCtorEq, false_iff]
          rintro ⟨_, e, e1, e2, e3⟩
          cases e
          rw [h2] at e1
          rw [h3] at e2
          cases e1
          cases e2
          exact h e3

/-- **C81** What E3033 reports for an object that does not depend on a condition, if no declared bound is 0: exactly the known texts that
are too short or too long. -/
theorem C81_length_partial (n : Nat) {rows : List (String × ValueRow)} {kvs : List (Key × Val)} (path : Path)
    (hrows : (rows.map Prod.fst).Nodup) (hw : (Val.dict kvs).WF) (hif : ¬ IsIf (.dict kvs)) (hnull : NoNullProps rows kvs)
    (hzero : ∀ prop d vt, (prop, d) ∈ rows → d.valueType = some vt → vt.stringMin ≠ some 0 ∧ vt.stringMax ≠ some 0) :
    Finds (lengthRule (n + 2) rows (.dict kvs) path) path (ValueFaults rows BadLength (.dict kvs)) := by
  have e : lengthRule (n + 2) rows (.dict kvs) path = eachDeclared rows (fun prop d _ p => byCheck (n + 2) (fun d => (lengthBounds d).map (fun b => lengthCheck b.1 b.2)) prop d (.dict kvs) p) (.dict kvs) path := by
    unfold lengthRule
    congr
    funext prop d v p
    simp only [byCheck]
    rcases lengthBounds d with _ | ⟨lo, hi⟩ <;> rfl
  rw [e]
  have hf := plainRule_finds (rows := rows) (kvs := kvs) (path := path) n (G := fun d u => BadLength d u ∧ lengthBounds d ≠ none)
    (chk := fun d => (lengthBounds d).map (fun b => lengthCheck b.1 b.2)) hrows hw hif hnull
  refine finds_congr (hf ?_ ?_) ?_
  · intro d u h
    rw [Option.map_eq_none_iff] at h
    exact fun hn => hn.2 h
  · intro d g u h p m
    obtain ⟨⟨lo, hi⟩, hb, rfl⟩ := Option.map_eq_some_iff.1 h
    obtain ⟨vt, h1, h2, h3, -, -, h6⟩ := lengthBounds_iff.1 hb
    have hbad : (BadLength d u ∧ lengthBounds d ≠ none) ↔ ∃ s, u = .str s ∧ (s.length < lo ∨ hi < s.length) := by
      constructor
      · rintro ⟨⟨vt', lo', hi', s, a1, a2, a3, -, a5, a6⟩, -⟩
        rw [h1] at a1
        cases a1
        rw [h2] at a2
        rw [h3] at a3
        cases a2
        cases a3
        exact ⟨s, a5, a6⟩
      · rintro ⟨s, hs, hl⟩
        exact ⟨⟨vt, lo, hi, s, h1, h2, h3, h6, hs, hl⟩, by rw [hb]; simp⟩
    rw [hbad]
    cases u with
    | str s =>
      simp only [lengthCheck]
      rw [mem_here]
      refine and_congr_right fun _ => ⟨fun hn => ⟨s, rfl, by omega⟩, ?_⟩
      rintro ⟨_, e, hl⟩
      cases e
      omega
    | _ => simp [lengthCheck]
  · intro r
    constructor
    · rintro ⟨q, l, r', hl, ⟨prop, d, v, q', u, a1, a2, a3, a4, a5, rfl⟩, rfl⟩
      exact ⟨q, l, _, hl, ⟨prop, d, v, q', u, a1, a2, a3, a4, a5.1, rfl⟩, rfl⟩
    · rintro ⟨q, l, r', hl, ⟨prop, d, v, q', u, a1, a2, a3, a4, a5, rfl⟩, rfl⟩
      refine ⟨q, l, _, hl, ⟨prop, d, v, q', u, a1, a2, a3, a4, ⟨a5, ?_⟩, rfl⟩, rfl⟩
      obtain ⟨vt, lo, hi, s, b1, b2, b3, b4, -⟩ := a5
      obtain ⟨z1, z2⟩ := hzero prop d vt a1 b1
      have := lengthBounds_iff.2 ⟨vt, b1, b2, b3, fun h => z1 (by rw [b2, h]), fun h => z2 (by rw [b3, h]), b4⟩
      rw [this]
      simp

theorem numberBounds_iff {d : ValueRow} {lo hi : Val} : numberBounds d = some (lo, hi) ↔
    ∃ vt ty, d.valueType = some vt ∧ vt.numberMin = some lo ∧ vt.numberMax = some hi ∧ d.prim = some ty ∧
      ty ∈ ["String", "Integer", "Long", "Double"] := by
  have hp : (d.prim = some "Integer" ∨ d.prim = some "Double" ∨ d.prim = some "Long" ∨ d.prim = some "String") ↔
      ∃ ty, d.prim = some ty ∧ ty ∈ ["String", "Integer", "Long", "Double"] := by
    constructor
    · rintro (h | h | h | h) <;> exact ⟨_, h, by simp⟩
    · rintro ⟨ty, h, hm⟩
      simp only [List.mem_cons, List.not_mem_nil, or_false] at hm
      rcases hm with rfl | rfl | rfl | rfl <;> simp [h]
  unfold numberBounds
  rw [← exists_comm]
  cases h1 : d.valueType with
  | none => simp
  | some vt =>
    cases h2 : vt.numberMin with
    | none => simp [h2]
    | some a =>
      cases h3 : vt.numberMax with
      | none => simp [h2, h3]
      | some b =>
        simp only [h2, h3]
        split
        · rename_i h
          obtain ⟨ty, hty⟩ := hp.1 h
          simp only [Option.some.injEq, Prod.mk.injEq]
          constructor
          · rintro ⟨rfl, rfl⟩
            exact ⟨ty, vt, rfl, h2, h3, hty⟩
          · rintro ⟨_, _, rfl, e1, e2, -⟩
            rw [h2] at e1
            rw [h3] at e2
            cases e1
            cases e2
            exact ⟨rfl, rfl⟩
        · rename_i h
          simp only [reduceCtorEq, false_iff]
          rintro ⟨ty, _, _, -, -, e3⟩
          exact h (hp.2 ⟨ty, e3⟩)

theorem numberIn_iff {E : PyText} {v x : Val} : NumberIn E v x ↔
    (∃ s, v = .str s ∧ E.toFloat s = some x) ∨ (v = x ∧ ((∃ i, v = .int i) ∨ (∃ r, v = .flt r) ∨ ∃ b, v = .bool b)) := by
  constructor
  · intro h
    cases h with
    | int => exact .inr ⟨rfl, .inl ⟨_, rfl⟩⟩
    | flt => exact .inr ⟨rfl, .inr (.inl ⟨_, rfl⟩)⟩
    | bool => exact .inr ⟨rfl, .inr (.inr ⟨_, rfl⟩)⟩
    | text h => exact .inl ⟨_, rfl, h⟩
  · rintro (⟨s, rfl, h⟩ | ⟨rfl, ⟨_, rfl⟩ | ⟨_, rfl⟩ | ⟨_, rfl⟩⟩)
    · exact .text h
    · exact .int
    · exact .flt
    · exact .bool

/-- **C81** The check of a number reports a value exactly if it is a text that is no number, or a number out of range. -/
theorem C81_number_value (E : PyText) (lo hi u : Val) (p m : Path) : m ∈ numberCheck E lo hi u p ↔ m = p ∧
    ((∃ s, u = .str s ∧ ∀ x, ¬ NumberIn E u x) ∨ ∃ x, NumberIn E u x ∧ ¬ (E.le lo x = true ∧ E.le x hi = true)) := by
  have key : ∀ x, m ∈ rangeCheck E lo hi x p ↔ m = p ∧ ¬ (E.le lo x = true ∧ E.le x hi = true) := by
    intro x
    unfold rangeCheck
    rw [mem_here]
    simp
  simp only [numberIn_iff]
  cases u with
  | str s =>
    cases h : E.toFloat s with
    | none => simp [numberCheck, h]
    | some x => simp [numberCheck, h, key]
  | int i => simp [numberCheck, key]
  | flt r => simp [numberCheck, key]
  | bool b => simp [numberCheck, key]
  | _ => simp [numberCheck]

/-- **C81** What E3034 reports for an object that does not depend on a condition: exactly the known values that are texts but no numbers, or
numbers out of range. -/
theorem C81_number_partial (E : PyText) (n : Nat) {rows : List (String × ValueRow)} {kvs : List (Key × Val)} (path : Path)
    (hrows : (rows.map Prod.fst).Nodup) (hw : (Val.dict kvs).WF) (hif : ¬ IsIf (.dict kvs)) (hnull : NoNullProps rows kvs) :
    Finds (numberRule E (n + 2) rows (.dict kvs) path) path (ValueFaults rows (BadNumberValue E) (.dict kvs)) := by
  have e : numberRule E (n + 2) rows (.dict kvs) path = eachDeclared rows (fun prop d _ p => byCheck (n + 2) (fun d => (numberBounds d).map (fun b => numberCheck E b.1 b.2)) prop d (.dict kvs) p) (.dict kvs) path := by
    unfold numberRule
    congr
    funext prop d v p
    simp only [byCheck]
    rcases numberBounds d with _ | ⟨lo, hi⟩ <;> rfl
  rw [e]
  have hf := plainRule_finds (rows := rows) (kvs := kvs) (path := path) n (G := BadNumberValue E)
    (chk := fun d => (numberBounds d).map (fun b => numberCheck E b.1 b.2)) hrows hw hif hnull
  refine hf ?_ ?_
  · intro d u h
    rw [Option.map_eq_none_iff] at h
    rintro ⟨vt, lo, hi, ty, h1, h2, h3, h4, h5, -⟩
    have := numberBounds_iff.2 ⟨vt, ty, h1, h2, h3, h4, h5⟩
    rw [h] at this
    cases this
  · intro d g u h p m
    obtain ⟨⟨lo, hi⟩, hb, rfl⟩ := Option.map_eq_some_iff.1 h
    obtain ⟨vt, ty, h1, h2, h3, h4, h5⟩ := numberBounds_iff.1 hb
    rw [C81_number_value]
    refine and_congr_right fun _ => ⟨fun h => ⟨vt, lo, hi, ty, h1, h2, h3, h4, h5, h⟩, ?_⟩
    rintro ⟨vt', lo', hi', ty', a1, a2, a3, a4, a5, a6⟩
    rw [h1] at a1
    cases a1
    rw [h2] at a2
    rw [h3] at a3
    cases a2
    cases a3
    exact a6

/-- **C81** in full, for the four rules: what they report for the objects a value may be are the values that are not allowed. -/
def C81_statement : Prop := ∀ (E : PyText) (rows : List (String × ValueRow)) (kvs : List (Key × Val)) (path : Path),
  (rows.map Prod.fst).Nodup → (Val.dict kvs).WF → (∀ q u, Leaf (.dict kvs) q u → ∃ l, u = .dict l) → NoNulls (.dict kvs) →
  ∃ n, Finds (allowedRule E n rows (.dict kvs) path) path (ValueFaults rows (NotAllowed E) (.dict kvs)) ∧
    Finds (patternRule E n rows (.dict kvs) path) path (ValueFaults rows (NoMatch E) (.dict kvs)) ∧
    Finds (lengthRule n rows (.dict kvs) path) path (ValueFaults rows BadLength (.dict kvs)) ∧
    Finds (numberRule E n rows (.dict kvs) path) path (ValueFaults rows (BadNumberValue E) (.dict kvs))

theorem mem_declaredIn {ρ α : Type} {rows : List (String × ρ)} {f : String → ρ → PyM (List α)} {v : Val} {res : List α}
    (h : declaredIn rows f v = .ok res) {m : α} (hm : m ∈ res) : ∃ s r l, (s, r) ∈ rows ∧ f s r = .ok l ∧ m ∈ l := by
  unfold declaredIn at h
  cases hi : iterOf v with
  | error e => rw [hi] at h; cases h
  | ok xs =>
    rw [hi] at h
    obtain ⟨x, -, l, hl, hml⟩ := (mem_collectM h).1 hm
    cases x with
    | str s =>
      cases hd : dlookup s rows with
      | none =>
        simp only [hd] at hl
        cases hl
        cases hml
      | some r =>
        simp only [hd] at hl
        exact ⟨s, r, l, dlookup_mem hd, hl, hml⟩
    | list _ => cases hl
    | dict _ => cases hl
    | _ =>
      cases hl
      cases hml

theorem mem_eachDeclared {ρ α : Type} {rows : List (String × ρ)} {f : String → ρ → Val → Path → PyM (List α)} {obj : Val} {path : Path}
    {res : List α} (h : eachDeclared rows f obj path = .ok res) {m : α} (hm : m ∈ res) :
    ∃ s r v p l, (s, r) ∈ rows ∧ f s r v p = .ok l ∧ m ∈ l := by
  unfold eachDeclared at h
  cases hi : itemsSafeOf obj path with
  | error e => rw [hi] at h; cases h
  | ok rs =>
    rw [hi] at h
    obtain ⟨x, -, l, hl, hml⟩ := (mem_collectM h).1 hm
    obtain ⟨s, r, l', h1, h2, h3⟩ := mem_declaredIn hl hml
    exact ⟨s, r, _, _, l', h1, h2, h3⟩

theorem checkValue_absent {α : Type} {H : Checks α} {kvs : List (Key × Val)} {key : String} {path : Path}
    (h : dlookup (Key.str key) kvs = none) {n : Nat} {l : List α} (hl : checkValue n H (.dict kvs) key path = .ok l) : l = [] := by
  unfold checkValue at hl
  simp only [h, Option.getD_none] at hl
  cases n with
  | zero => cases hl
  | succ n =>
    cases hl
    rfl

/-- **C81** Lengths and numbers are not checked in properties that depend, as a whole, on a condition. -/
theorem C81_condition_silent (E : PyText) {rows : List (String × ValueRow)} (hr : ∀ d, ("Fn::If", d) ∉ rows) (c a b : Val) (n : Nat)
    (path : Path) {res : List Path} : (lengthRule n rows (fnIf c a b) path = .ok res ∨ numberRule E n rows (fnIf c a b) path = .ok res) →
    res = [] := by
  have hlook : ∀ s d, (s, d) ∈ rows → dlookup (Key.str s) [(Key.str "Fn::If", Val.list [c, a, b])] = none := by
    intro s d hm
    have : s ≠ "Fn::If" := fun e => hr d (e ▸ hm)
    simp [dlookup, Ne.symm this]
  rintro (h | h)
  · refine List.eq_nil_iff_forall_not_mem.2 fun m hm => ?_
    obtain ⟨s, d, v, p, l, h1, h2, h3⟩ := mem_eachDeclared h hm
    split at h2
    · cases h2
      cases h3
    · rw [checkValue_absent (hlook s d h1) h2] at h3
      cases h3
  · refine List.eq_nil_iff_forall_not_mem.2 fun m hm => ?_
    obtain ⟨s, d, v, p, l, h1, h2, h3⟩ := mem_eachDeclared h hm
    split at h2
    · cases h2
      cases h3
    · rw [checkValue_absent (hlook s d h1) h2] at h3
      cases h3

/-- **C81** Texts of which the least length is 0 are never too long. -/
theorem C81_zero_unchecked {rows : List (String × ValueRow)} (hz : ∀ prop d vt, (prop, d) ∈ rows → d.valueType = some vt → vt.stringMin = some 0)
    {n : Nat} {obj : Val} {path : Path} {res : List Path} (h : lengthRule n rows obj path = .ok res) : res = [] := by
  refine List.eq_nil_iff_forall_not_mem.2 fun m hm => ?_
  obtain ⟨s, d, v, p, l, h1, h2, h3⟩ := mem_eachDeclared h hm
  cases hb : lengthBounds d with
  | none =>
    rw [hb] at h2
    cases h2
    cases h3
  | some b =>
    obtain ⟨lo, hi⟩ := b
    obtain ⟨vt, a1, a2, -, a4, -⟩ := lengthBounds_iff.1 hb
    have := hz s d vt h1 a1
    rw [a2] at this
    cases this
    exact absurd rfl a4

/-- **C81** does not hold: a text that is too long is not found, if the least length is 0 (as for descriptions of security groups). -/
theorem C81_violated : ¬ C81_statement := by
  intro h
  have leafN : ∀ {q u}, Leaf (.dict [(.str "D", .str "long")]) q u → q = [] ∧ u = .dict [(.str "D", .str "long")] :=
    fun h => ⟨((leaf_of_notIf (by simp [IsIf])).1 h).1, ((leaf_of_notIf (by simp [IsIf])).1 h).2.1⟩
  obtain ⟨n, -, -, ⟨l, h1, h2⟩, -⟩ := h ⟨fun _ => "", fun _ _ => true, fun _ => none, fun _ _ => true⟩
    [("D", { prim := some "String", valueType := some { stringMin := some 0, stringMax := some 3 } })]
    [(.str "D", .str "long")] [] (by simp) (by simp [Val.WF, Val.WFDict]) (fun q u hl => ⟨_, (leafN hl).2⟩) (by
      intro q hq
      cases hq with
      | key hm h' =>
        simp only [List.mem_cons, Prod.mk.injEq, List.not_mem_nil, or_false] at hm
        obtain ⟨-, rfl⟩ := hm
        cases h')
  have hq := (h2 [.str "D"]).2 ⟨_, rfl, [], _, [.str "D"], .here (by simp [IsIf]) (by simp [noValue]),
    ⟨"D", _, .str "long", [], .str "long", List.mem_cons_self, List.mem_cons_self,
      ⟨[], _, .here (by simp [IsIf]) (by simp [noValue]), .inl ⟨by simp, rfl, rfl⟩⟩, (by intro f a e; cases e),
      ⟨_, 0, 3, "long", rfl, rfl, rfl, .inr ⟨by simp, rfl⟩, rfl, .inr (by decide)⟩, rfl⟩, rfl⟩
  have e := C81_zero_unchecked (by
    intro prop d vt hm hv
    cases List.mem_singleton.1 hm
    cases hv
    rfl) h1
  rw [e] at hq
  cases hq

/-- declarations and properties that meet the hypotheses -/
def exValueRows : List (String × ValueRow) :=
  [("A", { prim := some "String", valueType := some ⟨["x", "y"], "[a-z]", some 1, some 3, some (.int 1), some (.int 9)⟩ })]
/-- the values of a list -/
def exValueProps : List (Key × Val) := [(.str "A", .list [.str "x", .str "longer", .dict [(.str "Ref", .str "P")]])]

theorem exValue_leaf {q : Path} {u : Val} (h : Leaf (.dict exValueProps) q u) : q = [] ∧ u = .dict exValueProps :=
  ⟨((leaf_of_notIf (by simp [IsIf, exValueProps])).1 h).1, ((leaf_of_notIf (by simp [IsIf, exValueProps])).1 h).2.1⟩

theorem exValue_null : NoNullProps exValueRows exValueProps := by
  intro prop d v _ hv
  simp only [exValueProps, List.mem_cons, Prod.mk.injEq, List.not_mem_nil, or_false] at hv
  obtain ⟨-, rfl⟩ := hv
  exact ⟨by simp, fun q h => by cases ((leaf_of_notIf (by simp [IsIf])).1 h).2.1⟩

theorem exValue_wf : (Val.dict exValueProps).WF := by simp [exValueProps, Val.WF, Val.WFDict, Val.WFList]

/-- the hypotheses are met -/
example (E : PyText) : Finds (allowedRule E 2 exValueRows (.dict exValueProps) []) [] (ValueFaults exValueRows (NotAllowed E) (.dict exValueProps)) ∧
    Finds (patternRule E 2 exValueRows (.dict exValueProps) []) [] (ValueFaults exValueRows (NoMatch E) (.dict exValueProps)) ∧
    Finds (lengthRule 2 exValueRows (.dict exValueProps) []) [] (ValueFaults exValueRows BadLength (.dict exValueProps)) ∧
    Finds (numberRule E 2 exValueRows (.dict exValueProps) []) [] (ValueFaults exValueRows (BadNumberValue E) (.dict exValueProps)) := by
  have hn : ∀ q l, Leaf (.dict exValueProps) q (.dict l) → NoNullProps exValueRows l := fun q l h => by
    cases (exValue_leaf h).2
    exact exValue_null
  refine ⟨C81_allowed E 0 [] (by simp [exValueRows]) exValue_wf (fun q u h => ⟨_, (exValue_leaf h).2⟩) hn,
    C81_pattern E 0 [] (by simp [exValueRows]) exValue_wf (fun q u h => ⟨_, (exValue_leaf h).2⟩) hn,
    C81_length_partial 0 [] (by simp [exValueRows]) exValue_wf (by simp [IsIf, exValueProps]) exValue_null ?_,
    C81_number_partial E 0 [] (by simp [exValueRows]) exValue_wf (by simp [IsIf, exValueProps]) exValue_null⟩
  intro prop d vt hm hv
  cases List.mem_singleton.1 hm
  cases hv
  exact ⟨by simp, by simp⟩

/-- what is reported: the second element, at its place -/
example : lengthRule 2 exValueRows (.dict exValueProps) [] = .ok [[.str "A", .int 1]] := by decide +kernel

end CfnLint
