import Verif.Spec.StateMachine
import Verif.Lemmas.CheckAll
import Verif.Lemmas.Declared
import Verif.Lemmas.Finds
import Verif.Lemmas.Config
/-
C108: the definitions of state machines.
-/
namespace CfnLint
open Spec

theorem smKeyIn_iff {k : Key} {l : List String} : smKeyIn k l = false ↔ ∀ s ∈ l, k ≠ .str s := by
  unfold smKeyIn
  simp

theorem dhas_false {k : Key} {kvs : List (Key × Val)} : dhas k kvs = false ↔ ∀ v, (k, v) ∉ kvs := by
  rw [Bool.eq_false_iff, ne_eq, dhas_iff]
  simp

/-- the two tables of the code are the table of the specification -/
theorem ruleStates_iff {ty : String} {may must : List String} :
    (ty, may, must) ∈ ruleStates ↔ ∃ keys, dlookup ty smKeys = some keys ∧ may = smCommon ++ keys ∧ must = "Type" :: (dlookup ty smRequired).getD [] := by
  constructor
  · intro h
    simp only [ruleStates, List.mem_cons, Prod.mk.injEq, List.not_mem_nil, or_false] at h
    rcases h with ⟨rfl, rfl, rfl⟩ | ⟨rfl, rfl, rfl⟩ | ⟨rfl, rfl, rfl⟩ | ⟨rfl, rfl, rfl⟩ | ⟨rfl, rfl, rfl⟩ | ⟨rfl, rfl, rfl⟩ | ⟨rfl, rfl, rfl⟩ |
      ⟨rfl, rfl, rfl⟩ <;> exact ⟨_, rfl, rfl, rfl⟩
  · rintro ⟨keys, h, rfl, rfl⟩
    have h := dlookup_mem h
    simp only [smKeys, List.mem_cons, Prod.mk.injEq, List.not_mem_nil, or_false] at h
    rcases h with ⟨rfl, rfl⟩ | ⟨rfl, rfl⟩ | ⟨rfl, rfl⟩ | ⟨rfl, rfl⟩ | ⟨rfl, rfl⟩ | ⟨rfl, rfl⟩ | ⟨rfl, rfl⟩ | ⟨rfl, rfl⟩ <;> decide +kernel

theorem smRequired_short {ty : String} : ((dlookup ty smRequired).getD []).length ≤ 1 := by
  cases h : dlookup ty smRequired with
  | none => simp
  | some l =>
    have h := dlookup_mem h
    have h2 : ∀ e ∈ smRequired, e.2.length ≤ 1 := by decide +kernel
    exact h2 _ h

/-- where the type is there and at most one key more is required, the first that is missing is the only one -/
theorem mem_smFirst {name : Key} {kvs : List (Key × Val)} {l : List String} (hl : l.length ≤ 1) (ht : dhas (Key.str "Type") kvs = true) {f : SmFault} :
    f ∈ smFirst name kvs ("Type" :: l) ↔ ∃ r ∈ "Type" :: l, (∀ v, (Key.str r, v) ∉ kvs) ∧ f = .stateMissing name r := by
  have htype : ¬ ∀ v, (Key.str "Type", v) ∉ kvs := by
    rw [← dhas_false, ht]
    decide
  match l, hl with
  | [], _ =>
    simp only [smFirst, ht, ↓reduceIte, List.not_mem_nil, List.mem_singleton, exists_eq_left, false_iff]
    exact fun h => htype h.1
  | [r], _ =>
    simp only [smFirst, ht, ↓reduceIte]
    by_cases h : dhas (Key.str r) kvs = true
    · rw [if_pos h]
      simp only [List.not_mem_nil, List.mem_cons, or_false, false_iff]
      rintro ⟨r', rfl | rfl, h1, -⟩
      · exact htype h1
      · rw [← dhas_false, h] at h1
        cases h1
    · rw [if_neg h]
      have h' := dhas_false.1 (Bool.eq_false_iff.2 h)
      simp only [List.mem_singleton, List.mem_cons, List.not_mem_nil, or_false]
      constructor
      · rintro rfl
        exact ⟨r, .inr rfl, h', rfl⟩
      · rintro ⟨r', rfl | rfl, h1, rfl⟩
        · exact absurd h1 htype
        · rfl

/-- C108: in a state that is an object with a type that can be looked up, exactly its faults are found. -/
theorem C108_state {name : Key} {st : List (Key × Val)} (hd : (st.map Prod.fst).Nodup)
    (ht : ∀ ty, (Key.str "Type", ty) ∈ st → (∀ xs, ty ≠ .list xs) ∧ ∀ xs, ty ≠ .dict xs) :
    ∃ l, smState name (.dict st) = .ok l ∧ ∀ f, f ∈ l ↔ StateFault ruleStates name st f := by
  unfold smState
  simp only [pyIn]
  cases h : dhas (Key.str "Type") st with
  | false =>
    have h' := dhas_false.1 h
    refine ⟨_, rfl, fun f => ?_⟩
    constructor
    · intro hf
      rw [List.mem_singleton] at hf
      subst hf
      exact .noType h'
    · intro hf
      cases hf with
      | noType => exact List.mem_singleton_self _
      | type h1 => exact absurd h1 (h' _)
      | key h1 => exact absurd h1 (h' _)
      | missing h1 => exact absurd h1 (h' _)
  | true =>
    obtain ⟨ty, hty⟩ : ∃ ty, (Key.str "Type", ty) ∈ st := by
      by_contra hc
      rw [dhas_false.2 (fun v hv => hc ⟨v, hv⟩)] at h
      cases h
    have hl := dlookup_of_mem hd hty
    have same : ∀ {v}, (Key.str "Type", v) ∈ st → v = ty := by
      intro v hv
      have := dlookup_of_mem hd hv
      rw [hl] at this
      exact (Option.some.inj this).symm
    have hno : ¬ ∀ v, (Key.str "Type", v) ∉ st := fun hc => hc _ hty
    have bad : (∀ t row, (t, row) ∈ ruleStates → ty ≠ .str t) →
        ∀ f, f ∈ [SmFault.stateType name] ↔ StateFault ruleStates name st f := by
      intro hb f
      rw [List.mem_singleton]
      constructor
      · rintro rfl
        exact .type hty hb
      · intro hf
        cases hf with
        | noType h1 => exact absurd h1 hno
        | type => rfl
        | key h1 h2 => exact absurd (same h1).symm (hb _ _ h2)
        | missing h1 h2 => exact absurd (same h1).symm (hb _ _ h2)
    simp only [hl, Option.getD_some]
    cases ty with
    | list xs => exact absurd rfl ((ht _ hty).1 xs)
    | dict xs => exact absurd rfl ((ht _ hty).2 xs)
    | none => exact ⟨_, rfl, bad (fun _ _ _ e => by cases e)⟩
    | bool b => exact ⟨_, rfl, bad (fun _ _ _ e => by cases e)⟩
    | int b => exact ⟨_, rfl, bad (fun _ _ _ e => by cases e)⟩
    | flt b => exact ⟨_, rfl, bad (fun _ _ _ e => by cases e)⟩
    | str ty =>
      simp only
      cases hk : dlookup ty smKeys with
      | none =>
        refine ⟨_, rfl, bad (fun t row hr e => ?_)⟩
        cases e
        obtain ⟨may, must⟩ := row
        obtain ⟨keys, h1, -⟩ := ruleStates_iff.1 hr
        rw [hk] at h1
        cases h1
      | some keys =>
        refine ⟨_, rfl, fun f => ?_⟩
        have hrow : (ty, smCommon ++ keys, "Type" :: (dlookup ty smRequired).getD []) ∈ ruleStates := ruleStates_iff.2 ⟨keys, hk, rfl, rfl⟩
        rw [List.mem_append, mem_smFirst smRequired_short h, List.mem_map]
        constructor
        · rintro (⟨⟨k, v⟩, h1, rfl⟩ | ⟨r, h1, h2, rfl⟩)
          · rw [List.mem_filter, Bool.not_eq_true', smKeyIn_iff] at h1
            exact .key hty hrow h1.1 h1.2
          · exact .missing hty hrow h1 h2
        · intro hf
          cases hf with
          | noType h1 => exact absurd h1 hno
          | type h1 h2 =>
            have := same h1
            subst this
            exact absurd rfl (h2 _ _ hrow)
          | @key ty' may must k v h1 h2 h3 h4 =>
            have e := same h1
            cases e
            obtain ⟨keys', h5, rfl, rfl⟩ := ruleStates_iff.1 h2
            rw [hk] at h5
            cases h5
            refine .inl ⟨(k, v), ?_, rfl⟩
            rw [List.mem_filter, Bool.not_eq_true', smKeyIn_iff]
            exact ⟨h3, h4⟩
          | @missing ty' may must r h1 h2 h3 h4 =>
            have e := same h1
            cases e
            obtain ⟨keys', h5, rfl, rfl⟩ := ruleStates_iff.1 h2
            exact .inr ⟨r, h3, h4, rfl⟩

/-- C108: in a document of the form of a definition exactly its faults are found. -/
theorem C108_definition {d : List (Key × Val)} (h : MachineShape (.dict d)) :
    ∃ l, smDefinition (.dict d) = .ok l ∧ ∀ f, f ∈ l ↔ MachineFault ruleStates d f := by
  obtain ⟨hw, kvs, e, hs⟩ := h
  cases e
  simp only [Val.WF] at hw
  obtain ⟨ss, h1, h2, h3⟩ : ∃ ss, itemsOf ((dlookup (Key.str "States") d).getD (.dict [])) = .ok ss ∧
      (∀ x, x ∈ ss ↔ ∃ ss', (Key.str "States", .dict ss') ∈ d ∧ x ∈ ss') ∧
      ∀ name u, (name, u) ∈ ss → ∃ st, u = .dict st ∧ (st.map Prod.fst).Nodup ∧
        ∀ ty, (Key.str "Type", ty) ∈ st → (∀ xs, ty ≠ .list xs) ∧ ∀ xs, ty ≠ .dict xs := by
    cases hl : dlookup (Key.str "States") d with
    | none =>
      refine ⟨[], rfl, fun x => ⟨fun hx => (by cases hx), ?_⟩, fun _ _ hx => (by cases hx)⟩
      rintro ⟨ss', h4, -⟩
      rw [dlookup_of_mem hw.1 h4] at hl
      cases hl
    | some v =>
      have hm := dlookup_mem hl
      obtain ⟨ss, rfl, h4⟩ := hs v hm
      refine ⟨ss, rfl, fun x => ⟨fun hx => ⟨ss, hm, hx⟩, ?_⟩, fun name u hx => ?_⟩
      · rintro ⟨ss', h5, hx⟩
        rw [dlookup_of_mem hw.1 h5] at hl
        cases hl
        exact hx
      · obtain ⟨st, rfl, h5⟩ := h4 name u hx
        have hw2 := wfDict_mem hw.2 _ hm
        simp only [Val.WF] at hw2
        have hw3 := wfDict_mem hw2.2 _ hx
        simp only [Val.WF] at hw3
        exact ⟨st, rfl, hw3.1, h5⟩
  obtain ⟨l, h4, h5⟩ := collectM_spec (f := fun kv : Key × Val => smState kv.1 kv.2) (as := ss)
    (P := fun kv f => ∃ st, kv.2 = .dict st ∧ StateFault ruleStates kv.1 st f) (by
      rintro ⟨name, u⟩ hm
      obtain ⟨st, rfl, h6, h7⟩ := h3 name u hm
      obtain ⟨l, h8, h9⟩ := C108_state (name := name) h6 h7
      refine ⟨l, h8, fun f => ?_⟩
      rw [h9]
      constructor
      · exact fun hf => ⟨st, rfl, hf⟩
      · rintro ⟨st', e, hf⟩
        cases e
        exact hf)
  refine ⟨_, by unfold smDefinition; rw [show itemsOf (.dict d) = .ok d from rfl]; simp only [h1, h4]; rfl, fun f => ?_⟩
  rw [List.mem_append, List.mem_append, h5, List.mem_map, List.mem_map]
  constructor
  · rintro ((⟨⟨k, v⟩, h6, rfl⟩ | ⟨r, h6, rfl⟩) | ⟨⟨name, u⟩, h6, st, e, h7⟩)
    · rw [List.mem_filter, Bool.not_eq_true', smKeyIn_iff] at h6
      exact .key h6.1 h6.2
    · rw [List.mem_filter, Bool.not_eq_true', dhas_false] at h6
      exact .missing h6.1 h6.2
    · obtain ⟨ss', h8, h9⟩ := (h2 _).1 h6
      cases e
      exact .state h8 h9 h7
  · intro hf
    cases hf with
    | @key k v h6 h7 =>
      refine .inl (.inl ⟨(k, v), ?_, rfl⟩)
      rw [List.mem_filter, Bool.not_eq_true', smKeyIn_iff]
      exact ⟨h6, h7⟩
    | @missing r h6 h7 =>
      refine .inl (.inr ⟨r, ?_, rfl⟩)
      rw [List.mem_filter, Bool.not_eq_true', dhas_false]
      exact ⟨h6, h7⟩
    | @state ss' name st f h6 h7 h8 => exact .inr ⟨(name, .dict st), (h2 _).2 ⟨ss', h6, h7⟩, st, rfl, h8⟩

/-- nothing is found where the text of an `Fn::Sub` is no JSON -/
theorem smValue_spec {loads : Val → Option Val} {fail : Bool} {u : Val} {p : Path} (hs : ∀ d, loads u = some d → MachineShape d) :
    ∃ l, smValue loads fail u p = .ok l ∧ ∀ m, m ∈ l ↔ m.1 = p ∧ ((fail = true ∧ loads u = none ∧ m.2 = .noJson) ∨
      ∃ d, loads u = some (.dict d) ∧ MachineFault ruleStates d m.2) := by
  unfold smValue
  cases h : loads u with
  | none =>
    refine ⟨_, rfl, fun m => ?_⟩
    obtain ⟨q, f⟩ := m
    cases fail <;> simp
  | some d =>
    have h1 := hs d h
    obtain ⟨-, kvs, rfl, -⟩ := id h1
    obtain ⟨l, h2, h3⟩ := C108_definition h1
    refine ⟨_, by simp only [h2]; rfl, fun m => ?_⟩
    obtain ⟨q, f⟩ := m
    rw [List.mem_map]
    constructor
    · rintro ⟨f', h4, e⟩
      cases e
      exact ⟨rfl, .inr ⟨kvs, rfl, (h3 _).1 h4⟩⟩
    · rintro ⟨rfl, ⟨-, e, -⟩ | ⟨d, e, h4⟩⟩
      · cases e
      · cases e
        exact ⟨f, (h3 _).2 h4, rfl⟩

/-- one value of the definition -/
theorem smOne_spec {loads : Val → Option Val} {u : Val} {p : Path} (hv : Known u → ∀ d, loads u = some d → MachineShape d)
    (hs : ∀ x, u = .dict [(.str "Fn::Sub", x)] → x ≠ .list [] ∧ ∀ t d, TextOfSub x t → loads t = some d → MachineShape d) :
    ∃ l, checkOne { value := some (smValue loads true), sub := some (smSub loads) } u p = .ok l ∧
      ∀ m, m ∈ l ↔ ∃ r f, DefinitionFault loads ruleStates u r f ∧ m = (p ++ r, f) := by
  by_cases hn : NoCall u
  · rw [checkOne_value _ hn]
    have hk := noCall_known.1 hn
    obtain ⟨l, h1, h2⟩ := smValue_spec (fail := true) (p := p) (hv hk)
    refine ⟨l, h1, fun m => ?_⟩
    obtain ⟨q, f⟩ := m
    rw [h2]
    constructor
    · rintro ⟨rfl, ⟨-, h3, h4⟩ | ⟨d, h3, h4⟩⟩
      · cases h4
        exact ⟨[], _, .noJson hk h3, by simp⟩
      · exact ⟨[], _, .value hk h3 h4, by simp⟩
    · rintro ⟨r, f', h3, e⟩
      cases e
      cases h3 with
      | noJson _ h3 => exact ⟨by simp, .inl ⟨rfl, h3, rfl⟩⟩
      | value _ h3 h4 => exact ⟨by simp, .inr ⟨_, h3, h4⟩⟩
      | sub => exact absurd rfl (hn "Fn::Sub" _ (by decide))
  · obtain ⟨name, arg, hf, rfl⟩ : ∃ name arg, name ∈ functionNames ∧ u = .dict [(.str name, arg)] := by
      unfold NoCall at hn
      simpa using hn
    have hnk : ¬ Known (.dict [(.str name, arg)]) := fun hk => hn (noCall_known.2 hk)
    rw [checkOne_call _ hf, named_sub hf]
    by_cases hsub : name = "Fn::Sub"
    · subst hsub
      rw [if_pos rfl]
      obtain ⟨hne, hsh⟩ := hs arg rfl
      show ∃ l, smSub loads arg (p ++ [.str "Fn::Sub"]) = .ok l ∧ _
      have key : ∀ t, TextOfSub arg t → (∀ t', TextOfSub arg t' → t' = t) →
          ∃ l, smValue loads false t (p ++ [.str "Fn::Sub"]) = .ok l ∧
            ∀ m, m ∈ l ↔ ∃ r f, DefinitionFault loads ruleStates (.dict [(.str "Fn::Sub", arg)]) r f ∧ m = (p ++ r, f) := by
        intro t ht huniq
        obtain ⟨l, h1, h2⟩ := smValue_spec (fail := false) (u := t) (p := p ++ [.str "Fn::Sub"]) (fun d hd => hsh t d ht hd)
        refine ⟨l, h1, fun m => ?_⟩
        obtain ⟨q, f⟩ := m
        rw [h2]
        constructor
        · rintro ⟨rfl, ⟨e, -⟩ | ⟨d, h3, h4⟩⟩
          · cases e
          · exact ⟨_, _, .sub ht h3 h4, rfl⟩
        · rintro ⟨r, f', h3, e⟩
          cases e
          cases h3 with
          | noJson h3 => exact absurd h3 hnk
          | value h3 => exact absurd h3 hnk
          | sub h3 h4 h5 =>
            cases huniq _ h3
            exact ⟨rfl, .inr ⟨_, h4, h5⟩⟩
      have none : (∀ t, ¬ TextOfSub arg t) → ∃ l, (.ok [] : PyM (List (Path × SmFault))) = .ok l ∧
            ∀ m, m ∈ l ↔ ∃ r f, DefinitionFault loads ruleStates (.dict [(.str "Fn::Sub", arg)]) r f ∧ m = (p ++ r, f) := by
        intro ht
        refine ⟨[], rfl, fun m => ⟨fun hm => (by cases hm), ?_⟩⟩
        rintro ⟨r, f', h3, -⟩
        cases h3 with
        | noJson h3 => exact absurd h3 hnk
        | value h3 => exact absurd h3 hnk
        | sub h3 => exact absurd h3 (ht _)
      unfold smSub
      split
      · exact absurd rfl hne
      · exact key _ .pair (fun t' ht' => by cases ht'; rfl)
      · exact key _ .plain (fun t' ht' => by cases ht'; rfl)
      · rename_i h1 h2 h3
        refine none (fun t ht => ?_)
        cases ht with
        | plain => exact h3 _ rfl
        | pair => exact h2 _ _ rfl
    · rw [if_neg hsub]
      refine ⟨[], rfl, fun m => ⟨fun hm => (by cases hm), ?_⟩⟩
      rintro ⟨r, f', h3, -⟩
      generalize hu : Val.dict [(.str name, arg)] = u at h3 hnk
      cases h3 with
      | noJson h3 => exact absurd h3 hnk
      | value h3 => exact absurd h3 hnk
      | sub => injection hu with hu; simp at hu; exact absurd hu.1 hsub

/-- C108: the rule finds exactly the faults of the values of the definition, each at the place of the value: of all values that the conditions can choose, of texts
and of the texts of `Fn::Sub`, whatever reads the texts, where what is read has the form of a definition. The tables of states are those of the rule; the
language has others, see `C108_statement`. -/
theorem C108_exact_partial {loads : Val → Option Val} {kvs : List (Key × Val)} {v : Val} {path : Path}
    (hk : dlookup (Key.str "DefinitionString") kvs = some v) (h0 : v ≠ .none) (hnull : ∀ q, ¬ Leaf v q .none) (n : Nat)
    (hv : ∀ q u, PropValue v q u → Known u → ∀ d, loads u = some d → MachineShape d)
    (hs : ∀ q x, PropValue v q (.dict [(.str "Fn::Sub", x)]) → x ≠ .list [] ∧ ∀ t d, TextOfSub x t → loads t = some d → MachineShape d) :
    ∃ res, stateMachineRule loads (n + 2) (.dict kvs) path = .ok res ∧
      ∀ m, m ∈ res ↔ ∃ q u r f, PropValue v q u ∧ DefinitionFault loads ruleStates u r f ∧ m = (path ++ .str "DefinitionString" :: (q ++ r), f) := by
  obtain ⟨res, h1, h2⟩ := checkValue_all (h := { value := some (smValue loads true), sub := some (smSub loads) }) (path := path)
    (P := fun u p m => ∃ r f, DefinitionFault loads ruleStates u r f ∧ m = (p ++ r, f)) hk h0 hnull n
    (fun q u hq p => smOne_spec (hv q u hq) (fun x e => hs q x (e ▸ hq)))
  refine ⟨res, h1, fun m => ?_⟩
  rw [h2]
  constructor
  · rintro ⟨q, u, h3, r, f, h4, rfl⟩
    exact ⟨q, u, r, f, h3, h4, by simp⟩
  · rintro ⟨q, u, r, f, h3, h4, rfl⟩
    exact ⟨q, u, h3, r, f, h4, by simp⟩

/-- what the states of the language are to have: exactly the faults are found -/
def C108_statement : Prop :=
  ∀ (d : List (Key × Val)), MachineShape (.dict d) → ∃ l, smDefinition (.dict d) = .ok l ∧ ∀ f, f ∈ l ↔ MachineFault languageStates d f

/-- a definition with one state -/
def exOneState (st : List (Key × Val)) : List (Key × Val) :=
  [(.str "StartAt", .str "A"), (.str "States", .dict [(.str "A", .dict st)])]

theorem exOneState_shape {ty : String} {rest : List (Key × Val)} (hw : (Val.dict ((.str "Type", .str ty) :: rest)).WF) :
    MachineShape (.dict (exOneState ((.str "Type", .str ty) :: rest))) := by
  refine ⟨by simp only [exOneState, Val.WF, Val.WFDict] at hw ⊢; simpa using hw, _, rfl, ?_⟩
  intro v hv
  simp only [exOneState, List.mem_cons, List.not_mem_nil, or_false, Prod.mk.injEq] at hv
  rcases hv with ⟨e, -⟩ | ⟨-, rfl⟩
  · simp at e
  · refine ⟨_, rfl, fun name u hu => ?_⟩
    simp only [List.mem_singleton, Prod.mk.injEq] at hu
    obtain ⟨rfl, rfl⟩ := hu
    refine ⟨_, rfl, fun t ht => ?_⟩
    have hl := dlookup_of_mem (by simp only [Val.WF] at hw; exact hw.1) ht
    simp [dlookup] at hl
    subst hl
    exact ⟨fun _ e => (by cases e), fun _ e => (by cases e)⟩

/-- C108: a state that maps and does not say what it does with an item passes. -/
theorem C108_map_passes : smDefinition (.dict (exOneState [(.str "Type", .str "Map"), (.str "End", .bool true)])) = .ok [] ∧
    MachineFault languageStates (exOneState [(.str "Type", .str "Map"), (.str "End", .bool true)]) (.stateMissing (.str "A") "Iterator") := by
  refine ⟨by decide +kernel, .state (.tail _ (.head _)) (.head _) (.missing (.head _) (.tail _ (.tail _ (.head _))) (by decide) ?_)⟩
  simp

/-- C108: the parameters of parallel states are reported, though the language has them. -/
theorem C108_parallel_parameters (v w : Val) :
    smDefinition (.dict (exOneState [(.str "Type", .str "Parallel"), (.str "Branches", v), (.str "Parameters", w)])) = .ok [.stateKey (.str "A") (.str "Parameters")] := by
  unfold smDefinition smState exOneState
  simp [itemsOf, collectM, dlookup, pyIn, dhas, smKeys, smKeyIn, smCommon, smTop, smFirst, smRequired]

/-- C108: a next state of a state that fails passes. -/
theorem C108_fail_next (v : Val) :
    smDefinition (.dict (exOneState [(.str "Type", .str "Fail"), (.str "Next", v)])) = .ok [] := by
  unfold smDefinition smState exOneState
  simp [itemsOf, collectM, dlookup, pyIn, dhas, smKeys, smKeyIn, smCommon, smTop, smFirst, smRequired]

theorem C108_violated : ¬ C108_statement := by
  intro h
  obtain ⟨l, h1, h2⟩ := h _ (exOneState_shape (ty := "Map") (rest := [(.str "End", .bool true)]) (by simp [Val.WF, Val.WFDict]))
  rw [C108_map_passes.1] at h1
  cases h1
  have := (h2 _).2 C108_map_passes.2
  cases this

/-- C108: what is reported as missing is missing in the language, too. -/
theorem C108_missing_sound {d : List (Key × Val)} (h : MachineShape (.dict d)) {l : List SmFault} (hl : smDefinition (.dict d) = .ok l) {name : Key} {r : String}
    (hm : SmFault.stateMissing name r ∈ l) : MachineFault languageStates d (.stateMissing name r) := by
  obtain ⟨l', h1, h2⟩ := C108_definition h
  rw [h1] at hl
  cases hl
  have hf := (h2 _).1 hm
  cases hf with
  | state h3 h4 h5 =>
    refine .state h3 h4 ?_
    cases h5 with
    | noType h6 => exact .noType h6
    | @missing ty may must _ h6 h7 h8 h9 =>
      have hsub : ∀ row ∈ ruleStates, ∃ row' ∈ languageStates, row'.1 = row.1 ∧ ∀ r ∈ row.2.2, r ∈ row'.2.2 := by decide +kernel
      obtain ⟨⟨ty', may', must'⟩, h10, h11, h12⟩ := hsub _ h7
      cases h11
      exact .missing h6 h10 (h12 _ h8) h9

/-- C108: the states in the branches and iterators of states are not looked at: what is found in a state is known from its keys and its type. -/
theorem C108_not_inside {name : Key} {st st' : List (Key × Val)} (hkeys : st.map Prod.fst = st'.map Prod.fst)
    (ht : dlookup (Key.str "Type") st = dlookup (Key.str "Type") st') : smState name (.dict st) = smState name (.dict st') := by
  have hd : ∀ k, dhas k st = dhas k st' := by
    intro k
    rw [Bool.eq_iff_iff, dhas_iff, dhas_iff, hkeys]
  have hf : ∀ l, smFirst name st l = smFirst name st' l := by
    intro l
    induction l with
    | nil => rfl
    | cons r rest ih => simp only [smFirst, hd, ih]
  have hm : ∀ (p : Key → Bool) (xs : List (Key × Val)), (xs.filter (fun kv => p kv.1)).map (fun kv => SmFault.stateKey name kv.1) =
      ((xs.map Prod.fst).filter p).map (fun k => SmFault.stateKey name k) := by
    intro p xs
    rw [List.filter_map, List.map_map]
    rfl
  unfold smState
  simp only [pyIn, hd, ht, hf]
  have h2 : ∀ l, (st.filter (fun kv => !smKeyIn kv.1 l)).map (fun kv => SmFault.stateKey name kv.1) =
      (st'.filter (fun kv => !smKeyIn kv.1 l)).map (fun kv => SmFault.stateKey name kv.1) := by
    intro l
    rw [hm (fun k => !smKeyIn k l), hm (fun k => !smKeyIn k l), hkeys]
  simp only [h2]

/-- C108: a text that reads as anything but an object makes the rule raise. -/
theorem C108_list_raises (loads : Val → Option Val) (fail : Bool) {u d : Val} (h : loads u = some d) (hd : ∀ kvs, d ≠ .dict kvs) (p : Path) :
    ∃ e, smValue loads fail u p = .error e := by
  unfold smValue smDefinition
  rw [h]
  cases d with
  | dict kvs => exact absurd rfl (hd kvs)
  | none => exact ⟨_, rfl⟩
  | bool b => exact ⟨_, rfl⟩
  | int b => exact ⟨_, rfl⟩
  | flt b => exact ⟨_, rfl⟩
  | str b => exact ⟨_, rfl⟩
  | list b => exact ⟨_, rfl⟩

/-- C108: states that are null make the rule raise. -/
theorem C108_null_states_raise (d : List (Key × Val)) (h : dlookup (Key.str "States") d = some .none) :
    ∃ e, smDefinition (.dict d) = .error e := by
  unfold smDefinition
  simp only [itemsOf, h, Option.getD_some]
  exact ⟨_, rfl⟩

/-- C108: of the keys that are missing, only the first is reported. -/
theorem C108_first (name : Key) (kvs : List (Key × Val)) (req : List String) :
    (∀ f, f ∈ smFirst name kvs req → ∃ xs r ys, req = xs ++ r :: ys ∧ (∀ x ∈ xs, dhas (.str x) kvs = true) ∧ dhas (.str r) kvs = false ∧ f = .stateMissing name r) ∧
    (smFirst name kvs req).length ≤ 1 := by
  induction req with
  | nil => exact ⟨fun f h => (by cases h), by simp [smFirst]⟩
  | cons r rest ih =>
    unfold smFirst
    cases h : dhas (Key.str r) kvs with
    | true =>
      rw [if_pos rfl]
      refine ⟨fun f hf => ?_, ih.2⟩
      obtain ⟨xs, r', ys, e1, e2, e3, e4⟩ := ih.1 f hf
      refine ⟨r :: xs, r', ys, by rw [e1]; rfl, ?_, e3, e4⟩
      intro x hx
      rcases List.mem_cons.1 hx with rfl | hx
      · exact h
      · exact e2 x hx
    | false =>
      rw [if_neg (by simp)]
      refine ⟨fun f hf => ⟨[], r, rest, rfl, by simp, h, ?_⟩, by simp⟩
      simpa using hf

/-- C108: a substitution with an empty list makes the rule raise. -/
theorem C108_empty_sub_raises (loads : Val → Option Val) (p : Path) : ∃ m, smSub loads (.list []) p = .error (.indexError m) := ⟨_, rfl⟩

/-- C108: a state that is a number or null makes the rule raise. -/
theorem C108_number_raises (name : Key) (i : Int) : ∃ e, smState name (.int i) = .error e := ⟨_, rfl⟩

theorem leaf_str {s : String} {q : Path} {w : Val} (h : Leaf (.str s) q w) : q = [] ∧ w = .str s := by
  generalize hv : Val.str s = v at h
  cases h with
  | here => exact ⟨rfl, hv.symm ▸ rfl⟩
  | left => cases hv
  | right => cases hv

theorem propValue_str {s : String} {q : Path} {w : Val} (h : PropValue (.str s) q w) : q = [] ∧ w = .str s := by
  obtain ⟨q', u, h1, ⟨-, rfl, rfl⟩ | ⟨xs, i, x, r, rfl, -⟩⟩ := h
  · exact leaf_str h1
  · cases (leaf_str h1).2

/-- a reader that knows one text -/
def exLoads (v : Val) : Option Val :=
  if v = .str "m" then some (.dict (exOneState [(.str "Type", .str "Pass"), (.str "X", .none)])) else none

theorem exLoads_shape {u d : Val} (h : exLoads u = some d) : MachineShape d := by
  unfold exLoads at h
  split at h
  · cases h
    exact exOneState_shape (by simp [Val.WF, Val.WFDict])
  · cases h

/-- the hypotheses can be met -/
example : ∃ res, stateMachineRule exLoads 2 (.dict [(.str "DefinitionString", .str "m")]) [] = .ok res ∧
      ∀ m, m ∈ res ↔ ∃ q u r f, PropValue (.str "m") q u ∧ DefinitionFault exLoads ruleStates u r f ∧ m = ([] ++ .str "DefinitionString" :: (q ++ r), f) :=
  C108_exact_partial rfl (by simp) (fun q h => by cases (leaf_str h).2) 0 (fun q u _ _ d hd => exLoads_shape hd)
    (fun q x h => by cases (propValue_str h).2)

/-- and a fault is found -/
example : stateMachineRule exLoads 2 (.dict [(.str "DefinitionString", .str "m")]) [] =
    .ok [([.str "DefinitionString"], .stateKey (.str "A") (.str "X"))] := by decide +kernel

end CfnLint
