import Verif.Model.Default
import Verif.Spec.Default
import Verif.Props.Limits
import Verif.Lemmas.Finds
import Std.Data.String.ToInt
/-
C86: defaults of parameters.
-/
namespace CfnLint
open Spec

/-- what Python's `==` does on texts and whole numbers -/
def DefaultEnv.Plain (E : DefaultEnv) : Prop :=
  (∀ s t, E.eq (.str s) (.str t) = true ↔ s = t) ∧ (∀ i j, E.eq (.int i) (.int j) = true ↔ i = j) ∧
    ∀ s i, E.eq (.str s) (.int i) = false ∧ E.eq (.int i) (.str s) = false

/-- a parameter whose attributes are written as intended: the list of allowed values is a list that is not empty, the pattern a text -/
structure ParamShape (p : Val) : Prop where
  obj : ∃ d, p = .dict d
  allowed : ∀ v, Attr p "AllowedValues" v → ∃ x xs, v = .list (x :: xs)
  pattern : ∀ v, Attr p "AllowedPattern" v → ∃ s, v = .str s ∧ s ≠ ""

theorem entryOf_eq {p : List (Key × Val)} {n : String} : entryOf p n = (look (.dict p) [.str n]).getD .none := by
  simp only [entryOf, look]
  cases dlookup (Key.str n) p <;> rfl

/-- what each finding says -/
inductive DefaultFault (E : DefaultEnv) (p v : Val) : DefaultKind → Prop
  | pattern {s} : Attr p "AllowedPattern" (.str s) → E.rx s (E.text v) = some false → DefaultFault E p v .pattern
  | minValue {m i j} : Attr p "MinValue" m → wholeOf v = some i → wholeOf m = some j → j ≠ 0 → i < j → DefaultFault E p v .minValue
  | maxValue {m i j} : Attr p "MaxValue" m → wholeOf v = some i → wholeOf m = some j → j < i → DefaultFault E p v .maxValue
  | allowedValues {xs} : Attr p "AllowedValues" (.list xs) → (∀ x ∈ xs, E.eq v x = false) → DefaultFault E p v .allowedValues
  | minLength {m n} : Attr p "MinLength" m → wholeOf m = some n → ((E.text v).toList.length : Int) < n → DefaultFault E p v .minLength
  | maxLength {m n} : Attr p "MaxLength" m → wholeOf m = some n → n < ((E.text v).toList.length : Int) → DefaultFault E p v .maxLength

theorem wholeOf_truthy {m : Val} {j : Int} (h : wholeOf m = some j) : m.truthy = true ↔ j ≠ 0 := by
  cases m with
  | int i => simp [wholeOf] at h; subst h; simp [Val.truthy]
  | bool b => cases b <;> simp [wholeOf] at h <;> subst h <;> simp [Val.truthy]
  | _ => cases h

/-- the checks report exactly the faults -/
theorem mem_defaultChecks {E : DefaultEnv} {p : List (Key × Val)} {v : Val} (hs : ParamShape (.dict p)) :
    ∃ ks, defaultChecks E p v = .ok ks ∧ ∀ k, k ∈ ks ↔ DefaultFault E (.dict p) v k := by
  have hA : ∃ a, (if (entryOf p "AllowedPattern").truthy then defaultPattern E v (entryOf p "AllowedPattern") else .ok []) = .ok a ∧
      ∀ k, k ∈ a ↔ k = .pattern ∧ DefaultFault E (.dict p) v .pattern := by
    cases hl : look (.dict p) [.str "AllowedPattern"] with
    | none =>
      refine ⟨[], by rw [entryOf_eq, hl]; rfl, fun k => ⟨fun h => (by cases h), ?_⟩⟩
      rintro ⟨_, h⟩
      cases h with
      | pattern h _ => unfold Attr at h; rw [hl] at h; cases h
    | some w =>
      obtain ⟨s, rfl, hne⟩ := hs.pattern w hl
      have ht : (Val.str s).truthy = true := by simp [Val.truthy, hne]
      refine ⟨_, by rw [entryOf_eq, hl]; simp only [Option.getD_some]; rw [if_pos ht]; rfl, fun k => ?_⟩
      by_cases hx : E.rx s (E.text v) = some false
      · rw [if_pos hx, List.mem_singleton]
        exact ⟨fun h => ⟨h, .pattern hl hx⟩, fun h => h.1⟩
      · rw [if_neg hx]
        refine ⟨fun h => (by cases h), ?_⟩
        rintro ⟨_, h⟩
        cases h with
        | pattern h h2 => unfold Attr at h; rw [hl] at h; cases h; exact absurd h2 hx
  have hB : ∃ b, (if (entryOf p "AllowedValues").truthy then defaultAllowed E v (entryOf p "AllowedValues") else .ok []) = .ok b ∧
      ∀ k, k ∈ b ↔ k = .allowedValues ∧ DefaultFault E (.dict p) v .allowedValues := by
    cases hl : look (.dict p) [.str "AllowedValues"] with
    | none =>
      refine ⟨[], by rw [entryOf_eq, hl]; rfl, fun k => ⟨fun h => (by cases h), ?_⟩⟩
      rintro ⟨_, h⟩
      cases h with
      | allowedValues h _ => unfold Attr at h; rw [hl] at h; cases h
    | some w =>
      obtain ⟨x, xs, rfl⟩ := hs.allowed w hl
      refine ⟨if (x :: xs).any (E.eq v) then [] else [.allowedValues], by rw [entryOf_eq, hl]; rfl, fun k => ?_⟩
      by_cases hx : (x :: xs).any (E.eq v) = true
      · rw [if_pos hx]
        refine ⟨fun h => (by cases h), ?_⟩
        rintro ⟨_, h⟩
        cases h with
        | allowedValues h h2 =>
          unfold Attr at h
          rw [hl] at h
          cases h
          obtain ⟨y, hy, he⟩ := List.any_eq_true.1 hx
          rw [h2 y hy] at he
          cases he
      · rw [if_neg hx, List.mem_singleton]
        refine ⟨fun h => ⟨h, .allowedValues hl fun y hy => ?_⟩, fun h => h.1⟩
        cases he : E.eq v y with
        | false => rfl
        | true => exact absurd (List.any_eq_true.2 ⟨y, hy, he⟩) hx
  have hC : ∀ k, k ∈ (if (entryOf p "MinValue").truthy then defaultMin v (entryOf p "MinValue") else []) ↔
      k = .minValue ∧ DefaultFault E (.dict p) v .minValue := by
    intro k
    rw [entryOf_eq]
    constructor
    · intro h
      cases hl : look (.dict p) [.str "MinValue"] with
      | none => rw [hl] at h; cases h
      | some w =>
        rw [hl] at h
        simp only [Option.getD_some] at h
        by_cases ht : w.truthy = true
        · rw [if_pos ht] at h
          unfold defaultMin at h
          cases h1 : wholeOf v with
          | none => rw [h1] at h; cases h
          | some i =>
            cases h2 : wholeOf w with
            | none => rw [h1, h2] at h; cases h
            | some j =>
              rw [h1, h2] at h
              dsimp only at h
              by_cases h3 : i < j
              · rw [if_pos h3, List.mem_singleton] at h
                exact ⟨h, .minValue hl h1 h2 ((wholeOf_truthy h2).1 ht) h3⟩
              · rw [if_neg h3] at h; cases h
        · rw [if_neg ht] at h; cases h
    · rintro ⟨rfl, h⟩
      cases h with
      | minValue hl h1 h2 h3 h4 =>
        unfold Attr at hl
        rw [hl]
        simp only [Option.getD_some]
        rw [if_pos ((wholeOf_truthy h2).2 h3)]
        unfold defaultMin
        rw [h1, h2]
        dsimp only
        rw [if_pos h4]
        exact List.mem_singleton.2 rfl
  have hD : ∀ k, k ∈ (if entryOf p "MaxValue" = .none then [] else defaultMax v (entryOf p "MaxValue")) ↔
      k = .maxValue ∧ DefaultFault E (.dict p) v .maxValue := by
    intro k
    rw [entryOf_eq]
    constructor
    · intro h
      cases hl : look (.dict p) [.str "MaxValue"] with
      | none => rw [hl] at h; simp at h
      | some w =>
        rw [hl] at h
        simp only [Option.getD_some] at h
        by_cases ht : w = .none
        · rw [if_pos ht] at h; cases h
        · rw [if_neg ht] at h
          unfold defaultMax at h
          cases h1 : wholeOf v with
          | none => rw [h1] at h; cases h
          | some i =>
            cases h2 : wholeOf w with
            | none => rw [h1, h2] at h; cases h
            | some j =>
              rw [h1, h2] at h
              dsimp only at h
              by_cases h3 : j < i
              · rw [if_pos h3, List.mem_singleton] at h
                exact ⟨h, .maxValue hl h1 h2 h3⟩
              · rw [if_neg h3] at h; cases h
    · rintro ⟨rfl, h⟩
      cases h with
      | maxValue hl h1 h2 h3 =>
        unfold Attr at hl
        rw [hl]
        simp only [Option.getD_some]
        rw [if_neg (by rintro rfl; cases h2)]
        unfold defaultMax
        rw [h1, h2]
        dsimp only
        rw [if_pos h3]
        exact List.mem_singleton.2 rfl
  have hF : ∀ k, k ∈ (if entryOf p "MinLength" = .none then [] else defaultMinLength E v (entryOf p "MinLength")) ↔
      k = .minLength ∧ DefaultFault E (.dict p) v .minLength := by
    intro k
    rw [entryOf_eq]
    constructor
    · intro h
      cases hl : look (.dict p) [.str "MinLength"] with
      | none => rw [hl] at h; simp at h
      | some w =>
        rw [hl] at h
        simp only [Option.getD_some] at h
        by_cases ht : w = .none
        · rw [if_pos ht] at h; cases h
        · rw [if_neg ht] at h
          unfold defaultMinLength at h
          cases h2 : wholeOf w with
          | none => rw [h2] at h; cases h
          | some j =>
            rw [h2] at h
            dsimp only at h
            by_cases h3 : ((E.text v).toList.length : Int) < j
            · rw [if_pos h3, List.mem_singleton] at h
              exact ⟨h, .minLength hl h2 h3⟩
            · rw [if_neg h3] at h; cases h
    · rintro ⟨rfl, h⟩
      cases h with
      | minLength hl h2 h3 =>
        unfold Attr at hl
        rw [hl]
        simp only [Option.getD_some]
        rw [if_neg (by rintro rfl; cases h2)]
        unfold defaultMinLength
        rw [h2]
        dsimp only
        rw [if_pos h3]
        exact List.mem_singleton.2 rfl
  have hG : ∀ k, k ∈ (if entryOf p "MaxLength" = .none then [] else defaultMaxLength E v (entryOf p "MaxLength")) ↔
      k = .maxLength ∧ DefaultFault E (.dict p) v .maxLength := by
    intro k
    rw [entryOf_eq]
    constructor
    · intro h
      cases hl : look (.dict p) [.str "MaxLength"] with
      | none => rw [hl] at h; simp at h
      | some w =>
        rw [hl] at h
        simp only [Option.getD_some] at h
        by_cases ht : w = .none
        · rw [if_pos ht] at h; cases h
        · rw [if_neg ht] at h
          unfold defaultMaxLength at h
          cases h2 : wholeOf w with
          | none => rw [h2] at h; cases h
          | some j =>
            rw [h2] at h
            dsimp only at h
            by_cases h3 : j < ((E.text v).toList.length : Int)
            · rw [if_pos h3, List.mem_singleton] at h
              exact ⟨h, .maxLength hl h2 h3⟩
            · rw [if_neg h3] at h; cases h
    · rintro ⟨rfl, h⟩
      cases h with
      | maxLength hl h2 h3 =>
        unfold Attr at hl
        rw [hl]
        simp only [Option.getD_some]
        rw [if_neg (by rintro rfl; cases h2)]
        unfold defaultMaxLength
        rw [h2]
        dsimp only
        rw [if_pos h3]
        exact List.mem_singleton.2 rfl
  obtain ⟨a, ea, ha⟩ := hA
  obtain ⟨b, eb, hb⟩ := hB
  refine ⟨_, by unfold defaultChecks; rw [ea]; dsimp only; rw [eb], ?_⟩
  intro k
  simp only [List.mem_append, ha, hb, hC, hD, hF, hG]
  constructor
  · rintro (((((⟨rfl, h⟩ | ⟨rfl, h⟩) | ⟨rfl, h⟩) | ⟨rfl, h⟩) | ⟨rfl, h⟩) | ⟨rfl, h⟩) <;> exact h
  · intro h
    cases k
    · exact .inl (.inl (.inl (.inl (.inl ⟨rfl, h⟩))))
    · exact .inl (.inl (.inl (.inl (.inr ⟨rfl, h⟩))))
    · exact .inl (.inl (.inl (.inr ⟨rfl, h⟩)))
    · exact .inl (.inl (.inr ⟨rfl, h⟩))
    · exact .inl (.inr ⟨rfl, h⟩)
    · exact .inr ⟨rfl, h⟩

/-- **C86**: exactly what E2015 reports, for parameters whose attributes are written as intended -/
theorem C86_exact {E : DefaultEnv} {t : Val} (hw : t.WF) (hp : Entries t "Parameters" ParamShape) :
    ∃ l, defaultRule E t = .ok l ∧ ∀ name kind, (name, kind) ∈ l ↔
      ∃ p v, look t [.str "Parameters", name] = some p ∧ Attr p "Default" v ∧ v ≠ .none ∧ DefaultFault E p v kind := by
  obtain ⟨d, hd, hP, hn, hl⟩ := entries_section hw hp
  have hi : parameterItems t = .ok d := by
    unfold parameterItems
    rw [hd]
    cases d with
    | nil => rfl
    | cons kv d => simp [Val.truthy, itemsOf]
  obtain ⟨l, e, hl'⟩ := collectM_spec (f := defaultOne E) (as := d)
    (P := fun kv r => r.1 = kv.1 ∧ ∃ v, Attr kv.2 "Default" v ∧ v ≠ .none ∧ DefaultFault E kv.2 v r.2) (fun kv hkv => by
      have hs := (hP kv hkv).1
      obtain ⟨k, p⟩ := kv
      obtain ⟨p, rfl⟩ := hs.obj
      simp only [defaultOne]
      by_cases h0 : entryOf p "Default" = .none
      · rw [if_pos h0]
        refine ⟨[], rfl, fun r => ⟨fun h => (by cases h), ?_⟩⟩
        rintro ⟨_, v, hv, hne, _⟩
        rw [entryOf_eq, hv] at h0
        exact absurd h0 hne
      · rw [if_neg h0]
        obtain ⟨ks, e, hks⟩ := mem_defaultChecks (E := E) (v := entryOf p "Default") hs
        rw [e]
        refine ⟨_, rfl, fun r => ?_⟩
        have hdef : Attr (.dict p) "Default" (entryOf p "Default") := by
          unfold Attr
          rw [entryOf_eq] at h0 ⊢
          cases hx : look (.dict p) [.str "Default"] with
          | none => rw [hx] at h0; exact absurd rfl h0
          | some w => rfl
        rw [List.mem_map]
        constructor
        · rintro ⟨k', hk', rfl⟩
          exact ⟨rfl, _, hdef, h0, (hks k').1 hk'⟩
        · rintro ⟨hr, v, hv, _, hf⟩
          have : v = entryOf p "Default" := by rw [entryOf_eq, hv]; rfl
          subst this
          exact ⟨r.2, (hks _).2 hf, by rw [← hr]⟩)
  refine ⟨l, by unfold defaultRule; rw [hi]; exact e, fun name kind => ?_⟩
  rw [hl']
  constructor
  · rintro ⟨⟨k, p⟩, hm, rfl, v, h1, h2, h3⟩
    exact ⟨p, v, (hl _ [] p).2 ⟨p, hm, rfl⟩, h1, h2, h3⟩
  · rintro ⟨p, v, h0, h1, h2, h3⟩
    obtain ⟨p', hm, e⟩ := (hl name [] p).1 h0
    cases e
    exact ⟨(name, p), hm, rfl, v, h1, h2, h3⟩

/-- **C86** in full: for parameters with the type of a text, a number or a list, whose attributes are written as intended and which have no
pattern, a default is reported exactly when the parameter may not have it -/
def C86_statement : Prop :=
  ∀ (E : DefaultEnv) (t : Val), E.Plain → t.WF → Entries t "Parameters" ParamShape →
    (∀ name p, look t [.str "Parameters", name] = some p → ∃ ty ∈ ["String", "Number", "CommaDelimitedList"], Attr p "Type" (.str ty)) →
    (∀ name v, look t [.str "Parameters", name, .str "AllowedPattern"] ≠ some v) →
    ∃ l, defaultRule E t = .ok l ∧ ∀ name, (∃ kind, (name, kind) ∈ l) ↔
      ∃ p v, look t [.str "Parameters", name] = some p ∧ Attr p "Default" v ∧ v ≠ .none ∧ Denies p v

/-- a parameter written the way the rule reads it: a text with texts and lengths, or a number with numbers. The least value is not zero. -/
inductive PlainParam (p : Val) : Prop
  | text {ty s} : Attr p "Type" (.str ty) → ty ≠ "Number" → ty ∉ listTypes → Attr p "Default" (.str s) →
      (∀ vs, Attr p "AllowedValues" (.list vs) → ∀ v ∈ vs, ∃ x, v = .str x) →
      (∀ n ∈ ["MinLength", "MaxLength"], ∀ v, Attr p n v → ty = "String" ∧ ∃ i, v = .int i) → PlainParam p
  | number {i} : Attr p "Type" (.str "Number") → Attr p "Default" (.int i) →
      (∀ vs, Attr p "AllowedValues" (.list vs) → ∀ v ∈ vs, ∃ x, v = .int x) →
      (∀ v, Attr p "MinValue" v → ∃ j, v = .int j ∧ j ≠ 0) → (∀ v, Attr p "MaxValue" v → ∃ j, v = .int j) →
      (∀ n ∈ ["MinLength", "MaxLength"], ∀ v, ¬ Attr p n v) → PlainParam p
  | silent : (∀ v, Attr p "Default" v → v = .none) → PlainParam p

instance (p v : Val) (n : String) : Decidable (Attr p n v) := by unfold Attr; infer_instance

theorem attr_fun {p v w : Val} {n : String} (h : Attr p n v) (h' : Attr p n w) : v = w := by
  unfold Attr at h h'; rw [h] at h'; exact Option.some.inj h'

theorem written_str {s x : String} : WrittenAs (.str s) x ↔ x = s :=
  ⟨fun h => by cases h; rfl, fun h => by subst h; exact .text⟩

theorem written_int {i : Int} {x : String} : WrittenAs (.int i) x ↔ x = toString i :=
  ⟨fun h => by cases h; rfl, fun h => by subst h; exact .number⟩

theorem means_int {i j : Int} : MeansNumber (.int i) j ↔ j = i :=
  ⟨fun h => by cases h; rfl, fun h => by subst h; exact .number⟩

theorem plainParam_fault {E : DefaultEnv} (hE : E.Plain) {p v : Val} (hp : PlainParam p) (hs : ParamShape p)
    (hx : ∀ w, ¬ Attr p "AllowedPattern" w) (hv : Attr p "Default" v) (hne : v ≠ .none) :
    (∃ kind, DefaultFault E p v kind) ↔ Denies p v := by
  cases hp with
  | silent h => exact absurd (h v hv) hne
  | text hty h1 h2 hd ha hl =>
    rename_i ty s
    cases attr_fun hv hd
    have hlist : ∀ xs, Attr p "AllowedValues" (.list xs) → ((∀ x ∈ xs, E.eq (.str s) x = false) ↔ ¬ Among s xs) := by
      intro xs hxs
      constructor
      · rintro h ⟨v, hm, hw⟩
        obtain ⟨y, rfl⟩ := ha xs hxs v hm
        have e := written_str.1 hw
        subst e
        have := h _ hm
        rw [(hE.1 s s).2 rfl] at this
        cases this
      · intro h x hm
        obtain ⟨y, rfl⟩ := ha xs hxs x hm
        cases he : E.eq (.str s) (.str y) with
        | false => rfl
        | true =>
          have e := (hE.1 s y).1 he
          subst e
          exact absurd ⟨_, hm, .text⟩ h
    constructor
    · rintro ⟨kind, h⟩
      cases h with
      | pattern h _ => exact absurd h (hx _)
      | minValue _ h => cases h
      | maxValue _ h => cases h
      | allowedValues h3 h4 => exact .other hty h2 h3 .text ((hlist _ h3).1 h4)
      | minLength h3 h4 h5 =>
        obtain ⟨rfl, i, rfl⟩ := hl _ (by simp) _ h3
        cases h4
        exact .short hty h3 .number .text h5
      | maxLength h3 h4 h5 =>
        obtain ⟨rfl, i, rfl⟩ := hl _ (by simp) _ h3
        cases h4
        exact .long hty h3 .number .text h5
    · intro h
      cases h with
      | below h3 => cases attr_fun hty h3; exact absurd rfl h1
      | above h3 => cases attr_fun hty h3; exact absurd rfl h1
      | short h3 h4 h5 h6 h7 =>
        obtain ⟨rfl, i, rfl⟩ := hl _ (by simp) _ h4
        have e1 := means_int.1 h5
        have e2 := written_str.1 h6
        subst e1 e2
        exact ⟨_, .minLength h4 rfl h7⟩
      | long h3 h4 h5 h6 h7 =>
        obtain ⟨rfl, i, rfl⟩ := hl _ (by simp) _ h4
        have e1 := means_int.1 h5
        have e2 := written_str.1 h6
        subst e1 e2
        exact ⟨_, .maxLength h4 rfl h7⟩
      | other h3 h4 h5 h6 h7 =>
        have e2 := written_str.1 h6
        subst e2
        exact ⟨_, .allowedValues h5 ((hlist _ h5).2 h7)⟩
      | element h3 h4 => cases attr_fun hty h3; exact absurd h4 h2
  | number hty hd ha h1 h2 hl =>
    rename_i i
    cases attr_fun hv hd
    have hlist : ∀ xs, Attr p "AllowedValues" (.list xs) → ((∀ x ∈ xs, E.eq (.int i) x = false) ↔ ¬ Among (toString i) xs) := by
      intro xs hxs
      constructor
      · rintro h ⟨v, hm, hw⟩
        obtain ⟨y, rfl⟩ := ha xs hxs v hm
        have e : i = y := Int.repr_injective (written_int.1 hw)
        subst e
        have := h _ hm
        rw [(hE.2.1 i i).2 rfl] at this
        cases this
      · intro h x hm
        obtain ⟨y, rfl⟩ := ha xs hxs x hm
        cases he : E.eq (.int i) (.int y) with
        | false => rfl
        | true =>
          have e := (hE.2.1 i y).1 he
          subst e
          exact absurd ⟨_, hm, .number⟩ h
    constructor
    · rintro ⟨kind, h⟩
      cases h with
      | pattern h _ => exact absurd h (hx _)
      | minValue h3 h4 h5 h6 h7 =>
        obtain ⟨j, rfl, _⟩ := h1 _ h3
        cases h4
        cases h5
        exact .below hty h3 .number .number h7
      | maxValue h3 h4 h5 h6 =>
        obtain ⟨j, rfl⟩ := h2 _ h3
        cases h4
        cases h5
        exact .above hty h3 .number .number h6
      | allowedValues h3 h4 => exact .other hty (by decide) h3 .number ((hlist _ h3).1 h4)
      | minLength h3 => exact absurd h3 (hl _ (by simp) _)
      | maxLength h3 => exact absurd h3 (hl _ (by simp) _)
    · intro h
      cases h with
      | below h3 h4 h5 h6 h7 =>
        obtain ⟨j, rfl, h8⟩ := h1 _ h4
        have e1 := means_int.1 h5
        have e2 := means_int.1 h6
        subst e1 e2
        exact ⟨_, .minValue h4 rfl rfl h8 h7⟩
      | above h3 h4 h5 h6 h7 =>
        obtain ⟨j, rfl⟩ := h2 _ h4
        have e1 := means_int.1 h5
        have e2 := means_int.1 h6
        subst e1 e2
        exact ⟨_, .maxValue h4 rfl rfl h7⟩
      | short _ h4 => exact absurd h4 (hl _ (by simp) _)
      | long _ h4 => exact absurd h4 (hl _ (by simp) _)
      | other h3 h4 h5 h6 h7 =>
        have e2 := written_int.1 h6
        subst e2
        exact ⟨_, .allowedValues h5 ((hlist _ h5).2 h7)⟩
      | element h3 h4 => cases attr_fun hty h3; exact absurd h4 (by decide)

/-- **C86**, for parameters written the way the rule reads them -/
theorem C86_plain_partial {E : DefaultEnv} (hE : E.Plain) {t : Val} (hw : t.WF) (hp : Entries t "Parameters" ParamShape)
    (hpl : ∀ name p, look t [.str "Parameters", name] = some p → PlainParam p)
    (hx : ∀ name p v, look t [.str "Parameters", name] = some p → ¬ Attr p "AllowedPattern" v) :
    ∃ l, defaultRule E t = .ok l ∧ ∀ name, (∃ kind, (name, kind) ∈ l) ↔
      ∃ p v, look t [.str "Parameters", name] = some p ∧ Attr p "Default" v ∧ v ≠ .none ∧ Denies p v := by
  obtain ⟨l, e, hl⟩ := C86_exact (E := E) hw hp
  have hsh : ∀ name p, look t [.str "Parameters", name] = some p → ParamShape p := by
    intro name p h
    obtain ⟨d, _, hP, _, hl2⟩ := entries_section hw hp
    obtain ⟨v, hm, hv⟩ := (hl2 name [] p).1 h
    cases hv
    exact (hP _ hm).1
  refine ⟨l, e, fun name => ?_⟩
  constructor
  · rintro ⟨kind, h⟩
    obtain ⟨p, v, h1, h2, h3, h4⟩ := (hl _ _).1 h
    exact ⟨p, v, h1, h2, h3, (plainParam_fault hE (hpl _ _ h1) (hsh _ _ h1) (hx name p · h1) h2 h3).1 ⟨_, h4⟩⟩
  · rintro ⟨p, v, h1, h2, h3, h4⟩
    obtain ⟨kind, hf⟩ := (plainParam_fault hE (hpl _ _ h1) (hsh _ _ h1) (hx name p · h1) h2 h3).2 h4
    exact ⟨kind, (hl _ _).2 ⟨p, v, h1, h2, h3, hf⟩⟩

/-- Python with `==` on texts and whole numbers only -/
def exEnv : DefaultEnv := ⟨fun _ => "", fun _ _ => some true, fun v w => decide (v = w)⟩

theorem exEnv_plain : exEnv.Plain := by
  refine ⟨fun s t => ?_, fun i j => ?_, fun s i => ⟨?_, ?_⟩⟩ <;> simp [exEnv]

/-- a template with one parameter -/
def exDefault (p : List (Key × Val)) : Val := .dict [(.str "Parameters", .dict [(.str "P", .dict p)])]

theorem exDefault_look {p : List (Key × Val)} {name : Key} {v : Val} {q : Path} :
    look (exDefault p) (.str "Parameters" :: name :: q) = some v ↔ name = .str "P" ∧ look (.dict p) q = some v := by
  simp only [exDefault, look, dlookup]
  by_cases h : name = .str "P"
  · subst h; simp [look, dlookup]
  · have : ¬ Key.str "P" = name := fun e => h e.symm
    simp [h, this, look, dlookup]

/-- a number that is written as text is not compared -/
def exTextNumber : List (Key × Val) :=
  [(.str "Type", .str "Number"), (.str "Default", .str "5"), (.str "MinValue", .int 10)]

/-- a least value of zero is not compared -/
def exMinZero : List (Key × Val) :=
  [(.str "Type", .str "Number"), (.str "Default", .int (-1)), (.str "MinValue", .int 0)]

/-- a list whose elements are all allowed is reported -/
def exComma : List (Key × Val) :=
  [(.str "Type", .str "CommaDelimitedList"), (.str "Default", .str "a,b"), (.str "AllowedValues", .list [.str "a", .str "b"])]

/-- a number that is allowed, written as text in the list, is reported -/
def exNumberText : List (Key × Val) :=
  [(.str "Type", .str "Number"), (.str "Default", .int 1), (.str "AllowedValues", .list [.str "1", .str "2"])]

theorem C86_text_missed : defaultRule exEnv (exDefault exTextNumber) = .ok [] ∧ Denies (.dict exTextNumber) (.str "5") :=
  ⟨by decide +kernel, .below (m := .int 10) (a := 10) (b := 5) (by decide +kernel) (by decide +kernel) .number (.text (i := 5)) (by decide)⟩

theorem C86_zero_missed : defaultRule exEnv (exDefault exMinZero) = .ok [] ∧ Denies (.dict exMinZero) (.int (-1)) :=
  ⟨by decide +kernel, .below (m := .int 0) (by decide +kernel) (by decide +kernel) .number .number (by decide)⟩

theorem C86_list_reported : defaultRule exEnv (exDefault exComma) = .ok [(.str "P", .allowedValues)] ∧
    ¬ Denies (.dict exComma) (.str "a,b") := by
  refine ⟨by decide +kernel, ?_⟩
  have hat : ∀ {n v}, Attr (.dict exComma) n v → look (.dict exComma) [.str n] = some v := fun h => h
  intro h
  cases h with
  | below _ h => exact absurd (hat h) (by simp [exComma, look, dlookup])
  | above _ h => exact absurd (hat h) (by simp [exComma, look, dlookup])
  | short _ h => exact absurd (hat h) (by simp [exComma, look, dlookup])
  | long _ h => exact absurd (hat h) (by simp [exComma, look, dlookup])
  | other h1 h2 =>
    have := hat h1
    simp [exComma, look, dlookup] at this
    subst this
    simp [listTypes] at h2
  | element h1 h2 h3 h4 h5 h6 h7 h8 h9 =>
    rename_i ty vs s a x b
    have hs := written_str.1 h4
    subst hs
    have hvs := hat h3
    simp [exComma, look, dlookup] at hvs
    subst hvs
    refine h9 ?_
    have h5' : ['a', ',', 'b'] = a ++ (x ++ b) := h5
    have hx : x = ['a'] ∨ x = ['b'] := by
      rcases a with _ | ⟨a1, a⟩
      · rcases x with _ | ⟨x1, x⟩
        · simp at h5'
          subst h5'
          simp at h8
        · simp only [List.nil_append, List.cons_append, List.cons.injEq] at h5'
          obtain ⟨rfl, h5'⟩ := h5'
          rcases x with _ | ⟨x2, x⟩
          · exact .inl rfl
          · simp only [List.cons_append, List.cons.injEq] at h5'
            exact absurd h5'.1.symm (h6 x2 (by simp))
      · simp only [List.cons_append, List.cons.injEq] at h5'
        obtain ⟨rfl, h5'⟩ := h5'
        rcases a with _ | ⟨a2, a⟩
        · simp at h7
        · simp only [List.cons_append, List.cons.injEq] at h5'
          obtain ⟨rfl, h5'⟩ := h5'
          rcases a with _ | ⟨a3, a⟩
          · rcases x with _ | ⟨x1, x⟩
            · simp at h5'
              subst h5'
              simp at h8
            · simp only [List.nil_append, List.cons_append, List.cons.injEq] at h5'
              obtain ⟨rfl, h5'⟩ := h5'
              have := List.append_eq_nil_iff.1 h5'.symm
              rw [this.1]
              exact .inr rfl
          · simp only [List.cons_append, List.cons.injEq] at h5'
            obtain ⟨rfl, h5'⟩ := h5'
            have := List.append_eq_nil_iff.1 h5'.symm
            rw [this.1] at h7
            simp at h7
    rcases hx with rfl | rfl
    · exact ⟨.str "a", by simp, .text⟩
    · exact ⟨.str "b", by simp, .text⟩

theorem C86_number_reported : defaultRule exEnv (exDefault exNumberText) = .ok [(.str "P", .allowedValues)] ∧
    ¬ Denies (.dict exNumberText) (.int 1) := by
  refine ⟨by decide +kernel, ?_⟩
  have hat : ∀ {n v}, Attr (.dict exNumberText) n v → look (.dict exNumberText) [.str n] = some v := fun h => h
  intro h
  cases h with
  | below _ h => exact absurd (hat h) (by simp [exNumberText, look, dlookup])
  | above _ h => exact absurd (hat h) (by simp [exNumberText, look, dlookup])
  | short _ h => exact absurd (hat h) (by simp [exNumberText, look, dlookup])
  | long _ h => exact absurd (hat h) (by simp [exNumberText, look, dlookup])
  | other h1 h2 h3 h4 h5 =>
    have hvs := hat h3
    simp [exNumberText, look, dlookup] at hvs
    subst hvs
    have hs := written_int.1 h4
    subst hs
    exact h5 ⟨.str "1", by simp, .text⟩
  | element h1 h2 =>
    have := hat h1
    simp [exNumberText, look, dlookup] at this
    subst this
    simp [listTypes] at h2

theorem exDefault_hyp {p : List (Key × Val)} (hs : ParamShape (.dict p)) :
    Entries (exDefault p) "Parameters" ParamShape := by
  refine ⟨⟨_, rfl⟩, ?_⟩
  intro v h
  simp [exDefault, look, dlookup] at h
  subst h
  exact ⟨_, rfl, by simpa using hs⟩

theorem C86_violated : ¬ C86_statement := by
  intro h
  have hs : ParamShape (.dict exMinZero) := ⟨⟨_, rfl⟩,
    fun v hv => by unfold Attr at hv; simp [exMinZero, look, dlookup] at hv,
    fun v hv => by unfold Attr at hv; simp [exMinZero, look, dlookup] at hv⟩
  obtain ⟨l, e, hl⟩ := h exEnv (exDefault exMinZero) exEnv_plain (by simp [exDefault, exMinZero, Val.WF, Val.WFDict])
    (exDefault_hyp hs)
    (fun name p hp => by
      obtain ⟨_, hp⟩ := exDefault_look.1 hp
      cases hp
      exact ⟨"Number", by simp, by decide +kernel⟩)
    (fun name v hv => by
      obtain ⟨_, hv⟩ := exDefault_look.1 hv
      simp [exMinZero, look, dlookup] at hv)
  rw [C86_zero_missed.1] at e
  cases e
  obtain ⟨k, hk⟩ := (hl (.str "P")).2 ⟨_, .int (-1), exDefault_look.2 ⟨rfl, rfl⟩, by decide +kernel, by decide, C86_zero_missed.2⟩
  cases hk

/-! The hypotheses of the partial theorem can be met. -/

/-- a text with a least length and allowed values -/
def exPlainText : List (Key × Val) :=
  [(.str "Type", .str "String"), (.str "Default", .str "ab"), (.str "MinLength", .int 3), (.str "AllowedValues", .list [.str "ab"])]

example : defaultRule exEnv (exDefault exPlainText) = .ok [(.str "P", .minLength)] := by decide +kernel
example : ParamShape (.dict exPlainText) := ⟨⟨_, rfl⟩,
  fun v hv => by unfold Attr at hv; simp [exPlainText, look, dlookup] at hv; subst hv; exact ⟨_, _, rfl⟩,
  fun v hv => by unfold Attr at hv; simp [exPlainText, look, dlookup] at hv⟩
example : PlainParam (.dict exPlainText) := by
  refine .text (ty := "String") (s := "ab") (by decide +kernel) (by decide) (by decide) (by decide +kernel) ?_ ?_
  · intro vs h
    unfold Attr at h
    simp [exPlainText, look, dlookup] at h
    subst h
    simp
  · intro n hn v h
    unfold Attr at h
    simp at hn
    rcases hn with rfl | rfl
    · simp [exPlainText, look, dlookup] at h
      exact ⟨rfl, _, h.symm⟩
    · simp [exPlainText, look, dlookup] at h
example : defaultRule exEnv (exDefault [(.str "Type", .str "Number"), (.str "Default", .int 5), (.str "MaxValue", .int 4)]) =
    .ok [(.str "P", .maxValue)] := by decide +kernel

/-- **C86**: a truth value given as the default is the number one or zero for the bounds, and the text `True` or `False` for the lengths and
    the pattern -/
theorem C86_truth_values (E : DefaultEnv) (b : Bool) (i : Int) (hi : i ≠ 0) (n : Int) (pat : String) (hpat : pat ≠ "") :
    defaultChecks E [(.str "MinValue", .int i)] (.bool b) = .ok (if (if b then 1 else 0) < i then [.minValue] else []) ∧
    defaultChecks E [(.str "MaxValue", .int i)] (.bool b) = .ok (if i < (if b then 1 else 0) then [.maxValue] else []) ∧
    defaultChecks E [(.str "MaxLength", .int n)] (.bool b) = .ok (if n < (if b then 4 else 5) then [.maxLength] else []) ∧
    defaultChecks E [(.str "AllowedPattern", .str pat)] (.bool b) =
      .ok (if E.rx pat (if b then "True" else "False") = some false then [.pattern] else []) := by
  have ht : (Val.str pat).truthy = true := by simpa [Val.truthy] using hpat
  have hti : (Val.int i).truthy = true := by simpa [Val.truthy] using hi
  cases b <;> refine ⟨?_, ?_, ?_, ?_⟩ <;>
    simp [defaultChecks, entryOf, dlookup, hti, ht, defaultMin, defaultMax, defaultMaxLength, defaultPattern, wholeOf, DefaultEnv.text, pyStr] <;>
    simp [Val.truthy]
  · by_cases h : E.rx pat "False" = some false <;> simp [h]
  · by_cases h : E.rx pat "True" = some false <;> simp [h]

end CfnLint
