import Verif.Spec.Outputs
import Verif.Lemmas.Search
import Verif.Lemmas.Finds
import Verif.Lemmas.CondSem
import Verif.Props.RefRules
/-
C118: the rules on outputs.
-/
namespace CfnLint
open Spec

/-! ### E6001 -/

theorem joinedMatch_texts {path : Path} (h : ∀ k ∈ path, ∃ s, k = Key.str s) : joinedMatch path = .ok [path] := by
  unfold joinedMatch
  rw [if_pos]
  rw [List.all_eq_true]
  intro k hk
  obtain ⟨s, rfl⟩ := h k hk
  rfl

theorem joinedMatch_raises {path : Path} {i : Int} (h : Key.int i ∈ path) : ∃ e, joinedMatch path = .error e := by
  unfold joinedMatch
  rw [if_neg]
  · exact ⟨_, rfl⟩
  · intro hall
    have := List.all_eq_true.1 hall _ h
    cases this

theorem singleCall_iff (kv : Key × Val) : outputFuncs.any (fun f => Key.str f == kv.1) = true ↔ SingleCall (.dict [kv]) := by
  obtain ⟨k, w⟩ := kv
  unfold SingleCall outputFuncs
  constructor
  · intro h
    rw [List.any_eq_true] at h
    obtain ⟨f, hf, he⟩ := h
    have : Key.str f = k := by simpa using he
    subst this
    exact ⟨f, w, rfl, by simpa using hf⟩
  · rintro ⟨f, w', e, hf⟩
    simp only [Val.dict.injEq, List.cons.injEq, Prod.mk.injEq, and_true] at e
    obtain ⟨rfl, rfl⟩ := e
    rw [List.any_eq_true]
    exact ⟨f, by simpa using hf, by simp⟩

theorem singleCall_one {kvs : List (Key × Val)} (h : SingleCall (.dict kvs)) : ∃ kv, kvs = [kv] := by
  obtain ⟨f, w, e, -⟩ := h
  exact ⟨_, Val.dict.inj e⟩

/-- `check_func` is a match exactly for what is no single value -/
theorem outputFunc_eq (v : Val) (path : Path) : (NotSingle v ∧ outputFunc v path = joinedMatch path) ∨ (¬ NotSingle v ∧ outputFunc v path = .ok []) := by
  unfold NotSingle
  cases v with
  | dict kvs =>
    rcases kvs with _ | ⟨kv, _ | ⟨kv', kvs⟩⟩
    · refine .inl ⟨.inr ⟨⟨_, rfl⟩, fun h => ?_⟩, rfl⟩
      obtain ⟨_, e⟩ := singleCall_one h
      cases e
    · by_cases h : SingleCall (.dict [kv])
      · refine .inr ⟨?_, ?_⟩
        · rintro (⟨xs, e⟩ | ⟨-, h'⟩)
          · cases e
          · exact h' h
        · simp only [outputFunc, (singleCall_iff kv).2 h, if_true]
      · refine .inl ⟨.inr ⟨⟨_, rfl⟩, h⟩, ?_⟩
        simp only [outputFunc]
        rw [if_neg (fun h' => h ((singleCall_iff kv).1 h'))]
    · refine .inl ⟨.inr ⟨⟨_, rfl⟩, fun h => ?_⟩, rfl⟩
      obtain ⟨_, e⟩ := singleCall_one h
      cases e
  | list xs => exact .inl ⟨.inl ⟨xs, rfl⟩, rfl⟩
  | _ => exact .inr ⟨by simp, rfl⟩

theorem outputFunc_spec (v : Val) {path : Path} (h : ∀ k ∈ path, ∃ s, k = Key.str s) :
    ∃ l, outputFunc v path = .ok l ∧ ∀ p, p ∈ l ↔ NotSingle v ∧ p = path := by
  rcases outputFunc_eq v path with ⟨h1, h2⟩ | ⟨h1, h2⟩
  · exact ⟨[path], by rw [h2, joinedMatch_texts h], fun p => by simp [h1]⟩
  · exact ⟨[], h2, fun p => by simp [h1]⟩

theorem outputExport_spec (v : Val) {path : Path} (h : ∀ k ∈ path, ∃ s, k = Key.str s) :
    ∃ l, outputExport v path = .ok l ∧ ∀ p, p ∈ l ↔ ((∀ w, v ≠ .dict [(.str "Name", w)]) ∧ p = path) ∨ ∃ w, v = .dict [(.str "Name", w)] ∧ NotSingle w ∧ p = path ++ [.str "Name"] := by
  by_cases hv : ∃ w, v = .dict [(.str "Name", w)]
  · obtain ⟨w, rfl⟩ := hv
    obtain ⟨l, h1, h2⟩ := outputFunc_spec w (path := path ++ [.str "Name"]) (by
      intro k hk
      rcases List.mem_append.1 hk with hk | hk
      · exact h k hk
      · exact ⟨_, List.mem_singleton.1 hk⟩)
    refine ⟨l, by simpa [outputExport] using h1, fun p => ?_⟩
    rw [h2]
    constructor
    · rintro ⟨h3, rfl⟩
      exact .inr ⟨w, rfl, h3, rfl⟩
    · rintro (⟨h3, -⟩ | ⟨w', e, h3, rfl⟩)
      · exact absurd rfl (h3 w)
      · simp at e
        subst e
        exact ⟨h3, rfl⟩
  · refine ⟨[path], ?_, fun p => ?_⟩
    · unfold outputExport
      split
      · rename_i kv
        rw [if_neg, joinedMatch_texts h]
        intro e
        obtain ⟨k, w⟩ := kv
        have : k = .str "Name" := by simpa using e
        subst this
        exact hv ⟨w, rfl⟩
      · exact joinedMatch_texts h
    · rw [List.mem_singleton]
      constructor
      · rintro rfl
        exact .inl ⟨fun w e => hv ⟨w, e⟩, rfl⟩
      · rintro (⟨-, rfl⟩ | ⟨w, e, -⟩)
        · rfl
        · exact absurd ⟨w, e⟩ hv

theorem outputProps_spec (n : Key) (o : List (Key × Val)) (p : Path) :
    p ∈ o.flatMap (fun prop => if outputKeys.any (fun s => Key.str s == prop.1) then [] else [[Key.str "Outputs", n, prop.1]]) ↔
      ∃ k w, (k, w) ∈ o ∧ k ≠ .str "Value" ∧ k ≠ .str "Export" ∧ k ≠ .str "Description" ∧ k ≠ .str "Condition" ∧ p = [.str "Outputs", n, k] := by
  rw [List.mem_flatMap]
  have hk : ∀ k : Key, outputKeys.any (fun s => Key.str s == k) = false ↔ k ≠ .str "Value" ∧ k ≠ .str "Export" ∧ k ≠ .str "Description" ∧ k ≠ .str "Condition" := by
    intro k
    simp only [outputKeys, List.any_cons, List.any_nil, Bool.or_false, Bool.or_eq_false_iff, beq_eq_false_iff_ne, ne_comm]
  constructor
  · rintro ⟨⟨k, w⟩, h1, h2⟩
    split at h2
    · cases h2
    · rename_i hn
      obtain ⟨a, b, c, d⟩ := (hk k).1 (Bool.eq_false_iff.2 hn)
      exact ⟨k, w, h1, a, b, c, d, List.mem_singleton.1 h2⟩
  · rintro ⟨k, w, h1, a, b, c, d, rfl⟩
    refine ⟨(k, w), h1, ?_⟩
    rw [if_neg (Bool.eq_false_iff.1 ((hk k).2 ⟨a, b, c, d⟩))]
    exact List.mem_singleton.2 rfl

/-- the findings on one output -/
theorem outputCheck_spec {n : String} {o : List (Key × Val)} (hn : (o.map Prod.fst).Nodup) :
    ∃ l, outputCheck (.str n, .dict o) = .ok l ∧ ∀ p, p ∈ l ↔
      (∃ k w, (k, w) ∈ o ∧ k ≠ .str "Value" ∧ k ≠ .str "Export" ∧ k ≠ .str "Description" ∧ k ≠ .str "Condition" ∧ p = [.str "Outputs", .str n, k]) ∨
      (∃ v, (Key.str "Value", v) ∈ o ∧ v.truthy = true ∧ NotSingle v ∧ p = [.str "Outputs", .str n, .str "Value"]) ∨
      (∃ v, (Key.str "Export", v) ∈ o ∧ v.truthy = true ∧ (∀ w, v ≠ .dict [(.str "Name", w)]) ∧ p = [.str "Outputs", .str n, .str "Export"]) ∨
      (∃ w, (Key.str "Export", .dict [(.str "Name", w)]) ∈ o ∧ NotSingle w ∧ p = [.str "Outputs", .str n, .str "Export", .str "Name"]) := by
  have ha : ∃ a, whereGiven outputFunc (dlookup (Key.str "Value") o) [.str "Outputs", .str n, .str "Value"] = .ok a ∧ ∀ p, p ∈ a ↔ ∃ v, (Key.str "Value", v) ∈ o ∧ v.truthy = true ∧ NotSingle v ∧ p = [.str "Outputs", .str n, .str "Value"] := by
    cases hd : dlookup (Key.str "Value") o with
    | none =>
      refine ⟨[], rfl, fun p => ?_⟩
      simp only [List.not_mem_nil, false_iff]
      rintro ⟨v, hv, -⟩
      rw [dlookup_of_mem hn hv] at hd
      cases hd
    | some v =>
      have hv := dlookup_mem hd
      have huniq : ∀ v', (Key.str "Value", v') ∈ o → v' = v := by
        intro v' h
        have := dlookup_of_mem hn h
        rw [hd] at this
        exact (Option.some.inj this).symm
      dsimp only [whereGiven]
      by_cases ht : v.truthy = true
      · rw [if_pos ht]
        obtain ⟨l, h1, h2⟩ := outputFunc_spec v (path := [.str "Outputs", .str n, .str "Value"]) (by simp)
        refine ⟨l, h1, fun p => ?_⟩
        rw [h2]
        constructor
        · rintro ⟨h3, rfl⟩
          exact ⟨v, hv, ht, h3, rfl⟩
        · rintro ⟨v', h3, -, h4, rfl⟩
          rw [huniq v' h3] at h4
          exact ⟨h4, rfl⟩
      · rw [if_neg ht]
        refine ⟨[], rfl, fun p => ?_⟩
        simp only [List.not_mem_nil, false_iff]
        rintro ⟨v', h3, h4, -⟩
        rw [huniq v' h3] at h4
        exact ht h4
  have hb : ∃ b, whereGiven outputExport (dlookup (Key.str "Export") o) [.str "Outputs", .str n, .str "Export"] = .ok b ∧ ∀ p, p ∈ b ↔ (∃ v, (Key.str "Export", v) ∈ o ∧ v.truthy = true ∧ (∀ w, v ≠ .dict [(.str "Name", w)]) ∧ p = [.str "Outputs", .str n, .str "Export"]) ∨
      (∃ w, (Key.str "Export", .dict [(.str "Name", w)]) ∈ o ∧ NotSingle w ∧ p = [.str "Outputs", .str n, .str "Export", .str "Name"]) := by
    cases hd : dlookup (Key.str "Export") o with
    | none =>
      refine ⟨[], rfl, fun p => ?_⟩
      simp only [List.not_mem_nil, false_iff]
      rintro (⟨v, hv, -⟩ | ⟨w, hv, -⟩)
      all_goals
        rw [dlookup_of_mem hn hv] at hd
        cases hd
    | some v =>
      have hv := dlookup_mem hd
      have huniq : ∀ v', (Key.str "Export", v') ∈ o → v' = v := by
        intro v' h
        have := dlookup_of_mem hn h
        rw [hd] at this
        exact (Option.some.inj this).symm
      dsimp only [whereGiven]
      by_cases ht : v.truthy = true
      · rw [if_pos ht]
        obtain ⟨l, h1, h2⟩ := outputExport_spec v (path := [.str "Outputs", .str n, .str "Export"]) (by simp)
        refine ⟨l, h1, fun p => ?_⟩
        rw [h2]
        constructor
        · rintro (⟨h3, rfl⟩ | ⟨w, rfl, h3, rfl⟩)
          · exact .inl ⟨v, hv, ht, h3, rfl⟩
          · exact .inr ⟨w, hv, h3, rfl⟩
        · rintro (⟨v', h3, -, h4, rfl⟩ | ⟨w, h3, h4, rfl⟩)
          · rw [huniq v' h3] at h4
            exact .inl ⟨h4, rfl⟩
          · exact .inr ⟨w, (huniq _ h3).symm, h4, rfl⟩
      · rw [if_neg ht]
        refine ⟨[], rfl, fun p => ?_⟩
        simp only [List.not_mem_nil, false_iff]
        rintro (⟨v', h3, h4, -⟩ | ⟨w, h3, -⟩)
        · rw [huniq v' h3] at h4
          exact ht h4
        · rw [← huniq _ h3] at ht
          exact ht rfl
  obtain ⟨a, ha1, ha2⟩ := ha
  obtain ⟨b, hb1, hb2⟩ := hb
  unfold outputCheck
  dsimp only
  rw [ha1]
  dsimp only
  rw [hb1]
  refine ⟨_, rfl, fun p => ?_⟩
  rw [List.mem_append, List.mem_append, outputProps_spec, ha2, hb2, or_assoc]

/-- C118: where outputs are objects with texts as names, E6001 finds exactly the outputs that are no section, the keys that are not known, the values and the names of exports
that are lists or objects other than calls of the functions, and the exports that are no names. -/
theorem C118_outputs_partial {top : List (Key × Val)} (hw : (Val.dict top).WF)
    (h : ∀ n v, OutputIs (.dict top) n v → (∃ s, n = .str s) ∧ ∃ o, v = .dict o) :
    ∃ l, outputsRule (.dict top) = .ok l ∧ ∀ p, p ∈ l ↔ OutputFinding (.dict top) p := by
  have hw' := hw
  rw [Val.WF] at hw
  unfold outputsRule
  simp only [Val.getD]
  by_cases hd : ∃ outs, (Key.str "Outputs", Val.dict outs) ∈ top
  · obtain ⟨outs, hm⟩ := hd
    have hat : At (.dict top) [.str "Outputs"] (.dict outs) := at_dict_one.2 hm
    have huniq : ∀ v, At (.dict top) [.str "Outputs"] v → v = .dict outs := fun v hv => at_det hw' hv hat
    have hou : ∀ n v, OutputIs (.dict top) n v ↔ (n, v) ∈ outs := by
      intro n v
      constructor
      · rintro ⟨outs', h1, h2⟩
        cases huniq _ h1
        exact h2
      · exact fun h2 => ⟨outs, hat, h2⟩
    rw [dlookup_of_mem hw.1 hm]
    dsimp only [Option.getD_some]
    obtain ⟨l, h1, h2⟩ := collectM_spec (as := outs) (f := outputCheck) (P := fun nv p => ∃ s o, nv = (.str s, .dict o) ∧
      ((∃ k w, (k, w) ∈ o ∧ k ≠ .str "Value" ∧ k ≠ .str "Export" ∧ k ≠ .str "Description" ∧ k ≠ .str "Condition" ∧ p = [.str "Outputs", .str s, k]) ∨
      (∃ v, (Key.str "Value", v) ∈ o ∧ v.truthy = true ∧ NotSingle v ∧ p = [.str "Outputs", .str s, .str "Value"]) ∨
      (∃ v, (Key.str "Export", v) ∈ o ∧ v.truthy = true ∧ (∀ w, v ≠ .dict [(.str "Name", w)]) ∧ p = [.str "Outputs", .str s, .str "Export"]) ∨
      (∃ w, (Key.str "Export", .dict [(.str "Name", w)]) ∈ o ∧ NotSingle w ∧ p = [.str "Outputs", .str s, .str "Export", .str "Name"]))) (by
        rintro ⟨n, v⟩ hm'
        obtain ⟨⟨s, rfl⟩, o, rfl⟩ := h n v ((hou n v).2 hm')
        have hwo : (Val.dict o).WF := at_wf (At.key hm (.key hm' .here)) hw'
        rw [Val.WF] at hwo
        obtain ⟨l, h1, h2⟩ := outputCheck_spec (n := s) hwo.1
        refine ⟨l, h1, fun p => ?_⟩
        rw [h2]
        constructor
        · exact fun h => ⟨s, o, rfl, h⟩
        · rintro ⟨s', o', e, h⟩
          cases e
          exact h)
    refine ⟨l, h1, fun p => ?_⟩
    rw [h2]
    constructor
    · rintro ⟨_, hm', s, o, rfl, ⟨k, w, h3, a, b, c, d, rfl⟩ | ⟨v, h3, h4, h5, rfl⟩ | ⟨v, h3, h4, h5, rfl⟩ | ⟨w, h3, h4, rfl⟩⟩
      · exact .property ((hou _ _).2 hm') h3 a b c d
      · exact .value ((hou _ _).2 hm') h3 h4 h5
      · exact .export ((hou _ _).2 hm') h3 h4 h5
      · exact .name ((hou _ _).2 hm') h3 h4
    · intro hf
      cases hf with
      | outputs h3 h4 h5 => exact absurd (huniq _ h3) (h5 outs)
      | property h3 h4 a b c d =>
        obtain ⟨⟨s, rfl⟩, -⟩ := h _ _ h3
        exact ⟨_, (hou _ _).1 h3, s, _, rfl, .inl ⟨_, _, h4, a, b, c, d, rfl⟩⟩
      | value h3 h4 h5 h6 =>
        obtain ⟨⟨s, rfl⟩, -⟩ := h _ _ h3
        exact ⟨_, (hou _ _).1 h3, s, _, rfl, .inr (.inl ⟨_, h4, h5, h6, rfl⟩)⟩
      | «export» h3 h4 h5 h6 =>
        obtain ⟨⟨s, rfl⟩, -⟩ := h _ _ h3
        exact ⟨_, (hou _ _).1 h3, s, _, rfl, .inr (.inr (.inl ⟨_, h4, h5, h6, rfl⟩))⟩
      | name h3 h4 h5 =>
        obtain ⟨⟨s, rfl⟩, -⟩ := h _ _ h3
        exact ⟨_, (hou _ _).1 h3, s, _, rfl, .inr (.inr (.inr ⟨_, h4, h5, rfl⟩))⟩
  · have hno : ∀ n v, ¬ OutputIs (.dict top) n v := by
      rintro n v ⟨outs, h1, -⟩
      exact hd ⟨outs, at_dict_one.1 h1⟩
    have honly : ∀ p, OutputFinding (.dict top) p ↔ ∃ v, At (.dict top) [.str "Outputs"] v ∧ v.truthy = true ∧ p = [.str "Outputs"] := by
      intro p
      constructor
      · intro hf
        cases hf with
        | outputs h3 h4 h5 => exact ⟨_, h3, h4, rfl⟩
        | property h3 => exact absurd h3 (hno _ _)
        | value h3 => exact absurd h3 (hno _ _)
        | «export» h3 => exact absurd h3 (hno _ _)
        | name h3 => exact absurd h3 (hno _ _)
      · rintro ⟨v, h1, h2, rfl⟩
        refine .outputs h1 h2 ?_
        rintro outs rfl
        exact hd ⟨outs, at_dict_one.1 h1⟩
    cases hl : dlookup (Key.str "Outputs") top with
    | none =>
      refine ⟨[], rfl, fun p => ?_⟩
      rw [honly]
      simp only [List.not_mem_nil, false_iff]
      rintro ⟨v, h1, -⟩
      rw [dlookup_of_mem hw.1 (at_dict_one.1 h1)] at hl
      cases hl
    | some v =>
      have hv := dlookup_mem hl
      have huniq : ∀ v', At (.dict top) [.str "Outputs"] v' → v' = v := fun v' h' => at_det hw' h' (at_dict_one.2 hv)
      dsimp only [Option.getD_some]
      split
      · rename_i e
        cases e
      · rename_i outs e
        cases e
        exact absurd ⟨_, hv⟩ hd
      · rename_i v' _ e
        cases e
        refine ⟨_, rfl, fun p => ?_⟩
        rw [honly]
        constructor
        · intro h1
          split at h1
          · rename_i ht
            exact ⟨v, at_dict_one.2 hv, ht, List.mem_singleton.1 h1⟩
          · cases h1
        · rintro ⟨v', h1, h2, rfl⟩
          rw [huniq v' h1] at h2
          rw [if_pos h2]
          exact List.mem_singleton.2 rfl

/-- C118: an output that is no object ends E6001 with an error. -/
theorem C118_outputs_raises {top : List (Key × Val)} (hw : (Val.dict top).WF) {n : Key} {v : Val} (h : OutputIs (.dict top) n v) (hv : ∀ o, v ≠ .dict o) :
    ∃ e, outputsRule (.dict top) = .error e := by
  rw [Val.WF] at hw
  obtain ⟨outs, h1, h2⟩ := h
  unfold outputsRule
  simp only [Val.getD]
  rw [dlookup_of_mem hw.1 (at_dict_one.1 h1)]
  dsimp only [Option.getD_some]
  cases hc : collectM outputCheck outs with
  | error e => exact ⟨e, rfl⟩
  | ok l =>
    obtain ⟨l', h'⟩ := collectM_each hc _ h2
    unfold outputCheck at h'
    split at h'
    · rename_i o e
      exact absurd e (hv o)
    · cases h'

/-- C118: with an integer as the name of an output a value that is to be reported ends E6001 with an error. -/
theorem C118_name_raises {top : List (Key × Val)} (hw : (Val.dict top).WF) {i : Int} {o : List (Key × Val)} (h : OutputIs (.dict top) (.int i) (.dict o)) {v : Val}
    (hv : (Key.str "Value", v) ∈ o) (ht : v.truthy = true) (hn : NotSingle v) : ∃ e, outputsRule (.dict top) = .error e := by
  have hw' := hw
  rw [Val.WF] at hw
  obtain ⟨outs, h1, h2⟩ := h
  have hwo : (Val.dict o).WF := at_wf (At.key (at_dict_one.1 h1) (.key h2 .here)) hw'
  rw [Val.WF] at hwo
  unfold outputsRule
  simp only [Val.getD]
  rw [dlookup_of_mem hw.1 (at_dict_one.1 h1)]
  dsimp only [Option.getD_some]
  cases hc : collectM outputCheck outs with
  | error e => exact ⟨e, rfl⟩
  | ok l =>
    obtain ⟨l', h'⟩ := collectM_each hc _ h2
    unfold outputCheck at h'
    dsimp only at h'
    rw [dlookup_of_mem hwo.1 hv] at h'
    dsimp only [whereGiven] at h'
    rw [if_pos ht] at h'
    rcases outputFunc_eq v [.str "Outputs", .int i, .str "Value"] with ⟨-, h4⟩ | ⟨h3, -⟩
    · obtain ⟨e, he⟩ := joinedMatch_raises (path := [.str "Outputs", .int i, .str "Value"]) (i := i) (by simp)
      rw [h4, he] at h'
      cases h'
    · exact absurd hn h3

/-- C118, as one would want it: with outputs that are objects E6001 is done. -/
def C118_outputs_statement : Prop :=
  ∀ top : List (Key × Val), (Val.dict top).WF → (∀ n v, OutputIs (.dict top) n v → ∃ o, v = .dict o) → ∃ l, outputsRule (.dict top) = .ok l

/-- C118: an output named by an integer, with a list as its value. -/
theorem C118_outputs_violated : ¬ C118_outputs_statement := by
  intro h
  obtain ⟨l, hl⟩ := h [(.str "Outputs", .dict [(.int 1, .dict [(.str "Value", .list [.str "a"])])])] (by simp [Val.WF, Val.WFDict, Val.WFList]) (by
    rintro n v ⟨outs, h1, h2⟩
    have := at_dict_one.1 h1
    simp at this
    subst this
    simp at h2
    exact ⟨_, h2.2⟩)
  cases hl

/-- the hypotheses of `C118_outputs_partial` are met, with findings -/
example : outputsRule (.dict [(.str "Outputs", .dict [(.str "A", .dict [(.str "Value", .list [.str "a"]), (.str "Export", .dict [(.str "Name", .dict [(.str "Fn::Split", .int 0)])]),
    (.str "Other", .int 1)])])]) = .ok [[.str "Outputs", .str "A", .str "Other"], [.str "Outputs", .str "A", .str "Value"], [.str "Outputs", .str "A", .str "Export", .str "Name"]] := by
  decide +kernel

/-! ### E6002, E6005 and E1004 -/

/-- the section of the outputs: an object, or none and nothing to find, or another value -/
theorem outputs_section {top : List (Key × Val)} (hw : (Val.dict top).WF) :
    (∃ outs, (Key.str "Outputs", Val.dict outs) ∈ top ∧ (Val.dict top).getD "Outputs" (.dict []) = .ok (.dict outs) ∧ ∀ n v, OutputIs (.dict top) n v ↔ (n, v) ∈ outs) ∨
    (∃ v, (Val.dict top).getD "Outputs" (.dict []) = .ok v ∧ ((v = .dict [] ∧ ∀ w, (Key.str "Outputs", w) ∉ top) ∨ (Key.str "Outputs", v) ∈ top) ∧ (∀ n v, ¬ OutputIs (.dict top) n v)) := by
  have hw' := hw
  rw [Val.WF] at hw
  simp only [Val.getD]
  by_cases hd : ∃ outs, (Key.str "Outputs", Val.dict outs) ∈ top
  · obtain ⟨outs, hm⟩ := hd
    refine .inl ⟨outs, hm, by rw [dlookup_of_mem hw.1 hm]; rfl, fun n v => ⟨?_, fun h2 => ⟨outs, at_dict_one.2 hm, h2⟩⟩⟩
    rintro ⟨outs', h1, h2⟩
    cases at_det hw' h1 (at_dict_one.2 hm)
    exact h2
  · have hno : ∀ n v, ¬ OutputIs (.dict top) n v := by
      rintro n v ⟨outs, h1, -⟩
      exact hd ⟨outs, at_dict_one.1 h1⟩
    cases hl : dlookup (Key.str "Outputs") top with
    | none =>
      refine .inr ⟨_, rfl, .inl ⟨rfl, fun w hw2 => ?_⟩, hno⟩
      rw [dlookup_of_mem hw.1 hw2] at hl
      cases hl
    | some v => exact .inr ⟨v, rfl, .inr (dlookup_mem hl), hno⟩

theorem valueIn_iff {v : Val} (h : (∃ o, v = .dict o) ∨ (∃ xs, v = .list xs) ∨ ∃ s, v = .str s) : ∃ b, pyIn "Value" v = .ok b ∧ (b = true ↔ ValueIn v) := by
  unfold ValueIn
  rcases h with ⟨o, rfl⟩ | ⟨xs, rfl⟩ | ⟨s, rfl⟩
  · refine ⟨_, rfl, ?_⟩
    rw [dhas_iff]
    simp [List.mem_map]
  · refine ⟨_, rfl, ?_⟩
    simp
  · refine ⟨_, rfl, ?_⟩
    simp

/-- C118: E6002 finds exactly the outputs that have no `Value` in them, whether they are objects, lists or texts. -/
theorem C118_required {top : List (Key × Val)} (hw : (Val.dict top).WF) (hs : ∀ v, At (.dict top) [.str "Outputs"] v → v.truthy = true → ∃ outs, v = .dict outs)
    (h : ∀ n v, OutputIs (.dict top) n v → (∃ o, v = .dict o) ∨ (∃ xs, v = .list xs) ∨ ∃ s, v = .str s) :
    ∃ l, outputRequiredRule (.dict top) = .ok l ∧ ∀ p, p ∈ l ↔ ∃ n v, OutputIs (.dict top) n v ∧ ¬ ValueIn v ∧ p = [.str "Outputs", n, .str "Value"] := by
  unfold outputRequiredRule
  rcases outputs_section hw with ⟨outs, hm, hg, hou⟩ | ⟨v, hg, hv, hno⟩
  · rw [hg]
    dsimp only
    obtain ⟨l, h1, h2⟩ := collectM_spec (as := outs) (f := outputRequired) (P := fun nv p => ¬ ValueIn nv.2 ∧ p = [.str "Outputs", nv.1, .str "Value"]) (by
      rintro ⟨n, v⟩ hm'
      obtain ⟨b, hb, hbi⟩ := valueIn_iff (h n v ((hou n v).2 hm'))
      unfold outputRequired
      rw [hb]
      refine ⟨_, rfl, fun p => ?_⟩
      dsimp only
      rw [← hbi]
      cases b <;> simp)
    refine ⟨l, h1, fun p => ?_⟩
    rw [h2]
    constructor
    · rintro ⟨⟨n, v⟩, h3, h4, rfl⟩
      exact ⟨n, v, (hou n v).2 h3, h4, rfl⟩
    · rintro ⟨n, v, h3, h4, rfl⟩
      exact ⟨(n, v), (hou n v).1 h3, h4, rfl⟩
  · rw [hg]
    have hnone : ∀ p, p ∈ ([] : List Path) ↔ ∃ n v, OutputIs (.dict top) n v ∧ ¬ ValueIn v ∧ p = [.str "Outputs", n, .str "Value"] := by
      intro p
      simp only [List.not_mem_nil, false_iff]
      rintro ⟨n, v, h3, -⟩
      exact hno n v h3
    rcases hv with ⟨rfl, -⟩ | hv
    · exact ⟨[], rfl, hnone⟩
    · split
      · rename_i e
        cases e
      · rename_i outs e
        cases e
        cases outs with
        | nil => exact ⟨[], rfl, hnone⟩
        | cons kv outs => exact absurd ⟨_, at_dict_one.2 hv, List.mem_cons_self⟩ (hno kv.1 kv.2)
      · rename_i v' hnd e
        cases e
        rw [if_neg]
        · exact ⟨[], rfl, hnone⟩
        · intro ht
          obtain ⟨outs, rfl⟩ := hs v (at_dict_one.2 hv) ht
          exact hnd outs rfl

/-- C118: an output that is a number or nothing ends E6002 with an error, and so do outputs that are no object. -/
theorem C118_required_raises {top : List (Key × Val)} (hw : (Val.dict top).WF)
    (h : (∃ v, At (.dict top) [.str "Outputs"] v ∧ v.truthy = true ∧ ∀ outs, v ≠ .dict outs) ∨
      ∃ n v, OutputIs (.dict top) n v ∧ (∀ o, v ≠ .dict o) ∧ (∀ xs, v ≠ .list xs) ∧ ∀ s, v ≠ .str s) :
    ∃ e, outputRequiredRule (.dict top) = .error e := by
  have hw' := hw
  rw [Val.WF] at hw
  unfold outputRequiredRule
  simp only [Val.getD]
  rcases h with ⟨v, h1, h2, h3⟩ | ⟨n, v, ⟨outs, h1, h2⟩, a, b, c⟩
  · rw [dlookup_of_mem hw.1 (at_dict_one.1 h1)]
    dsimp only [Option.getD_some]
    split
    · rename_i e
      cases e
    · rename_i outs e
      cases e
      exact absurd rfl (h3 outs)
    · rename_i v' _ e
      cases e
      rw [if_pos h2]
      exact ⟨_, rfl⟩
  · rw [dlookup_of_mem hw.1 (at_dict_one.1 h1)]
    dsimp only [Option.getD_some]
    cases hc : collectM outputRequired outs with
    | error e => exact ⟨e, rfl⟩
    | ok l =>
      obtain ⟨l', h'⟩ := collectM_each hc _ h2
      cases v with
      | dict o => exact absurd rfl (a o)
      | list xs => exact absurd rfl (b xs)
      | str s => exact absurd rfl (c s)
      | _ => cases h'

example : outputRequiredRule (.dict [(.str "Outputs", .dict [(.str "A", .dict [(.str "Export", .str "Value")]), (.str "B", .str "the Value")])]) =
    .ok [[.str "Outputs", .str "A", .str "Value"]] := by decide +kernel

example : ∃ e, outputRequiredRule (.dict [(.str "Outputs", .dict [(.str "A", .none)])]) = .error e :=
  C118_required_raises (by simp [Val.WF, Val.WFDict]) (.inr ⟨.str "A", .none, ⟨_, at_dict_one.2 List.mem_cons_self, List.mem_cons_self⟩, by simp, by simp, by simp⟩)

theorem otherThanText_iff (v : Val) : notText v = true ↔ OtherThanText v := by
  unfold notText OtherThanText
  cases v <;> simp

/-- C118: E6005 finds exactly the descriptions of outputs that are no texts and not empty. -/
theorem C118_texts {top : List (Key × Val)} (hw : (Val.dict top).WF) (hs : ∀ v, At (.dict top) [.str "Outputs"] v → v.truthy = true → ∃ outs, v = .dict outs)
    (h : ∀ n v, OutputIs (.dict top) n v → ∃ o, v = .dict o) :
    ∃ l, outputTextRule (.dict top) = .ok l ∧ ∀ p, p ∈ l ↔ ∃ n o w, OutputIs (.dict top) n (.dict o) ∧ (Key.str "Description", w) ∈ o ∧ OtherThanText w ∧ p = [.str "Outputs", n, .str "Description"] := by
  unfold outputTextRule
  rcases outputs_section hw with ⟨outs, hm, hg, hou⟩ | ⟨v, hg, hv, hno⟩
  · rw [hg]
    dsimp only
    obtain ⟨l, h1, h2⟩ := collectM_spec (as := outs) (f := outputText) (P := fun nv p => ∃ o w, nv.2 = .dict o ∧ (Key.str "Description", w) ∈ o ∧ OtherThanText w ∧ p = [.str "Outputs", nv.1, .str "Description"]) (by
      rintro ⟨n, v⟩ hm'
      obtain ⟨o, rfl⟩ := h n v ((hou n v).2 hm')
      have hwo : (Val.dict o).WF := at_wf (At.key hm (.key hm' .here)) hw
      rw [Val.WF] at hwo
      unfold outputText
      simp only [Val.getD]
      refine ⟨_, rfl, fun p => ?_⟩
      cases hd : dlookup (Key.str "Description") o with
      | none =>
        simp only [Option.getD_none, notText, Val.truthy, Bool.false_and, Bool.false_eq_true, if_false, List.not_mem_nil, false_iff]
        rintro ⟨o', w, e, hw2, -⟩
        cases e
        rw [dlookup_of_mem hwo.1 hw2] at hd
        cases hd
      | some w =>
        simp only [Option.getD_some]
        constructor
        · intro hp
          split at hp
          · rename_i ht
            exact ⟨o, w, rfl, dlookup_mem hd, (otherThanText_iff w).1 ht, List.mem_singleton.1 hp⟩
          · cases hp
        · rintro ⟨o', w', e, hw2, ht, rfl⟩
          cases e
          rw [dlookup_of_mem hwo.1 hw2] at hd
          cases hd
          rw [if_pos ((otherThanText_iff w).2 ht)]
          exact List.mem_singleton.2 rfl)
    refine ⟨l, h1, fun p => ?_⟩
    rw [h2]
    constructor
    · rintro ⟨⟨n, v⟩, h3, o, w, e, h4, h5, rfl⟩
      dsimp only at e
      subst e
      exact ⟨n, o, w, (hou n _).2 h3, h4, h5, rfl⟩
    · rintro ⟨n, o, w, h3, h4, h5, rfl⟩
      exact ⟨(n, _), (hou n _).1 h3, o, w, rfl, h4, h5, rfl⟩
  · rw [hg]
    have hnone : ∀ p, p ∈ ([] : List Path) ↔ ∃ n o w, OutputIs (.dict top) n (.dict o) ∧ (Key.str "Description", w) ∈ o ∧ OtherThanText w ∧ p = [.str "Outputs", n, .str "Description"] := by
      intro p
      simp only [List.not_mem_nil, false_iff]
      rintro ⟨n, o, w, h3, -⟩
      exact hno n _ h3
    rcases hv with ⟨rfl, -⟩ | hv
    · exact ⟨[], rfl, hnone⟩
    · split
      · rename_i e
        cases e
      · rename_i outs e
        cases e
        cases outs with
        | nil => exact ⟨[], rfl, hnone⟩
        | cons kv outs => exact absurd ⟨_, at_dict_one.2 hv, List.mem_cons_self⟩ (hno kv.1 kv.2)
      · rename_i v' hnd e
        cases e
        rw [if_neg]
        · exact ⟨[], rfl, hnone⟩
        · intro ht
          obtain ⟨outs, rfl⟩ := hs v (at_dict_one.2 hv) ht
          exact hnd outs rfl

example : outputTextRule (.dict [(.str "Outputs", .dict [(.str "A", .dict [(.str "Description", .int 3)]), (.str "B", .dict [(.str "Description", .int 0)])])]) =
    .ok [[.str "Outputs", .str "A", .str "Description"]] := by decide +kernel

/-- C118: E1004 finds the description of the template exactly where it is no text and not empty. -/
theorem C118_description {top : List (Key × Val)} (hw : (Val.dict top).WF) :
    ∃ l, descriptionRule (.dict top) = .ok l ∧ ∀ p, p ∈ l ↔ p = [.str "Description"] ∧ ∃ w, At (.dict top) p w ∧ OtherThanText w := by
  rw [Val.WF] at hw
  unfold descriptionRule
  simp only [Val.getD]
  refine ⟨_, rfl, fun p => ?_⟩
  cases hd : dlookup (Key.str "Description") top with
  | none =>
    simp only [Option.getD_none, notText, Val.truthy, Bool.false_and, Bool.false_eq_true, if_false, List.not_mem_nil, false_iff]
    rintro ⟨rfl, w, hw2, -⟩
    rw [dlookup_of_mem hw.1 (at_dict_one.1 hw2)] at hd
    cases hd
  | some w =>
    simp only [Option.getD_some]
    constructor
    · intro hp
      split at hp
      · rename_i ht
        rw [List.mem_singleton] at hp
        subst hp
        exact ⟨rfl, w, at_dict_one.2 (dlookup_mem hd), (otherThanText_iff w).1 ht⟩
      · cases hp
    · rintro ⟨rfl, w', hw2, ht⟩
      rw [dlookup_of_mem hw.1 (at_dict_one.1 hw2)] at hd
      cases hd
      rw [if_pos ((otherThanText_iff w).2 ht)]
      exact List.mem_singleton.2 rfl

/-! ### W6001 -/

/-- C118: W6001 finds exactly the imports that are the value of an output, and those within them. -/
theorem C118_imports (t globals : Val) (p : Path) (w : Val) :
    (p, w) ∈ outputImportRule t globals ↔ KeyAt t globals "Fn::ImportValue" p w ∧ ∃ n q, p = .str "Outputs" :: n :: .str "Value" :: .str "Fn::ImportValue" :: q := by
  unfold outputImportRule
  rw [List.mem_filter, mem_keyAt]
  refine and_congr_right (fun hk => ?_)
  obtain ⟨⟨q', hq'⟩, -⟩ := hk
  constructor
  · intro h
    split at h
    · rename_i a n b c q e
      simp only [Bool.and_eq_true, beq_iff_eq] at h
      obtain ⟨⟨rfl, rfl⟩, rfl⟩ := h
      exact ⟨n, q, e⟩
    · rename_i a n b e
      dsimp only at e
      simp only [Bool.and_eq_true, beq_iff_eq] at h
      obtain ⟨⟨rfl, rfl⟩, -⟩ := h
      rw [hq'] at e
      have := congrArg List.getLast? e
      simp at this
    · cases h
  · rintro ⟨n, q, rfl⟩
    simp

example : outputImportRule (.dict [(.str "Outputs", .dict [(.str "A", .dict [(.str "Value", .dict [(.str "Fn::ImportValue", .str "x")])])])]) (.dict []) =
    [([.str "Outputs", .str "A", .str "Value", .str "Fn::ImportValue"], .str "x")] := by decide +kernel

/-! ### E6003 -/

theorem inOutput_iff {p : Path} {w : Val} {key : String} (hp : ∃ q, p = q ++ [Key.str key]) (h1 : key ≠ "Value") (h2 : key ≠ "Outputs") :
    inOutputValue (p, w) = true ↔ InOutput p key ∨ (p = [.str "Outputs", .str key] ∧ w = .str "Value") := by
  obtain ⟨q, rfl⟩ := hp
  unfold inOutputValue InOutput
  rcases q with _ | ⟨a, _ | ⟨b, _ | ⟨c, q⟩⟩⟩
  · simp
  · simp
  · simp [h1]
  · simp only [List.cons_append, List.head?_cons, Bool.and_eq_true, beq_iff_eq, Option.some.injEq]
    constructor
    · rintro ⟨rfl, rfl⟩
      exact .inl ⟨b, q, rfl⟩
    · rintro (⟨n, q', e⟩ | ⟨e, -⟩)
      · simp only [List.cons.injEq] at e
        exact ⟨e.1, e.2.2.1⟩
      · simp at e

theorem notJoined_spec {p : Path} {key : String} (h : InOutput p key) : ∃ b, notJoined p = .ok b ∧ (b = true ↔ ¬ JoinedAt p) := by
  have h3 : ∃ pre x y f, p = pre ++ [x, y, f] := by
    obtain ⟨n, q, rfl⟩ := h
    rcases List.eq_nil_or_concat q with rfl | ⟨q', z, rfl⟩
    · exact ⟨[.str "Outputs"], n, .str "Value", .str key, rfl⟩
    · rcases List.eq_nil_or_concat q' with rfl | ⟨q'', z', rfl⟩
      · exact ⟨[.str "Outputs", n], .str "Value", z, .str key, by simp⟩
      · exact ⟨.str "Outputs" :: n :: .str "Value" :: q'', z', z, .str key, by simp⟩
  obtain ⟨pre, x, y, f, rfl⟩ := h3
  refine ⟨_, by simp [notJoined]; rfl, ?_⟩
  unfold JoinedAt
  have e1 : (∃ pre' y' f', pre ++ [x, y, f] = pre' ++ [.str "Fn::Join", y', f']) ↔ x = .str "Fn::Join" := by
    constructor
    · rintro ⟨pre', y', f', e⟩
      have := congrArg (fun l => l.reverse) e
      simp at this
      exact this.2.2.1
    · rintro rfl
      exact ⟨pre, y, f, rfl⟩
  have e2 : (∃ pre' f', pre ++ [x, y, f] = pre' ++ [.int 1, f']) ↔ y = .int 1 := by
    constructor
    · rintro ⟨pre', f', e⟩
      have := congrArg (fun l => l.reverse) e
      simp at this
      exact this.2.1
    · rintro rfl
      exact ⟨pre ++ [x], f, by simp⟩
  rw [e1, e2]
  simp

/-- what is found of a key in a section whose values are objects -/
theorem section_lookup {top : List (Key × Val)} (hw : (Val.dict top).WF) {sec : String} (h1 : ∀ v, At (.dict top) [.str sec] v → ∃ rs, v = .dict rs)
    (h2 : ∀ r v, At (.dict top) [.str sec, .str r] v → ∃ o, v = .dict o) (s : String) :
    ∃ rs, (Val.dict top).getD sec (.dict []) = .ok (.dict rs) ∧
      ((dlookup (Key.str s) rs = none ∧ ∀ v, ¬ At (.dict top) [.str sec, .str s] v) ∨
        ∃ o, dlookup (Key.str s) rs = some (.dict o) ∧ (Val.dict o).WF ∧ At (.dict top) [.str sec, .str s] (.dict o) ∧
          ∀ k w, At (.dict top) [.str sec, .str s, .str k] w ↔ (Key.str k, w) ∈ o) := by
  have hw' := hw
  rw [Val.WF] at hw
  simp only [Val.getD]
  cases hl : dlookup (Key.str sec) top with
  | none =>
    refine ⟨[], rfl, .inl ⟨rfl, fun v hv => ?_⟩⟩
    obtain ⟨c, hc, -⟩ := at_cons.1 hv
    rw [dlookup_of_mem hw.1 (at_dict_one.1 hc)] at hl
    cases hl
  | some v =>
    have hm := dlookup_mem hl
    obtain ⟨rs, rfl⟩ := h1 v (at_dict_one.2 hm)
    refine ⟨rs, rfl, ?_⟩
    have hwr : (Val.dict rs).WF := at_wf (At.key hm .here) hw'
    have hwr' := hwr
    rw [Val.WF] at hwr
    cases hs : dlookup (Key.str s) rs with
    | none =>
      refine .inl ⟨rfl, fun v hv => ?_⟩
      obtain ⟨c, hc, hv⟩ := at_cons.1 hv
      cases at_det hw' hc (at_dict_one.2 hm)
      rw [dlookup_of_mem hwr.1 (at_dict_one.1 hv)] at hs
      cases hs
    | some u =>
      have hmu := dlookup_mem hs
      have hat : At (.dict top) [.str sec, .str s] u := .key hm (.key hmu .here)
      obtain ⟨o, rfl⟩ := h2 s u hat
      refine .inr ⟨o, rfl, at_wf (At.key hmu .here) hwr', hat, fun k w => ⟨fun h => ?_, fun h => .key hm (.key hmu (.key h .here))⟩⟩
      have hs2 : At (.dict top) ([.str sec, .str s] ++ [.str k]) w := h
      obtain ⟨c, hc, h⟩ := at_cons.1 h
      cases at_det hw' hc (at_dict_one.2 hm)
      obtain ⟨c, hc, h⟩ := at_cons.1 h
      cases at_det hwr' hc (at_dict_one.2 hmu)
      exact at_dict_one.1 h

theorem listAttribute_spec {attrs : String → String → Option String} {top : List (Key × Val)} (hw : (Val.dict top).WF) {globals : Val} (hs : OutputShape (.dict top) globals)
    {p : Path} {w : Val} (hk : KeyAt (.dict top) globals "Fn::GetAtt" p w) :
    ∃ l, listAttribute attrs (.dict top) (p, w) = .ok l ∧ ∀ x, x ∈ l ↔ ∃ r a, w = .list [.str r, .str a] ∧ InOutput p "Fn::GetAtt" ∧ ListAttribute attrs (.dict top) r a ∧ ¬ JoinedAt p ∧ x = (p, w) := by
  unfold listAttribute
  by_cases hi : inOutputValue (p, w) = true
  · rw [if_pos hi]
    rcases (inOutput_iff hk.1 (by decide) (by decide)).1 hi with hin | ⟨-, rfl⟩
    · cases w with
      | list xs =>
        obtain ⟨r, a, rfl⟩ := hs.args p xs hk hin
        obtain ⟨rs, hg, hrs⟩ := section_lookup hw hs.resources hs.resource r
        dsimp only
        rw [hg]
        dsimp only [Val.getV, hashName, Val.toKey?, Option.bind_some]
        rcases hrs with ⟨hn, hno⟩ | ⟨o, ho, hwo, hat, hkey⟩
        · rw [hn]
          refine ⟨[], rfl, fun x => ?_⟩
          simp only [List.not_mem_nil, false_iff]
          rintro ⟨r', a', e, -, ⟨ty, hty, -⟩, -⟩
          simp only [Val.list.injEq, List.cons.injEq, Val.str.injEq, and_true] at e
          obtain ⟨rfl, rfl⟩ := e
          have hty' : At (.dict top) ([.str "Resources", .str r] ++ [.str "Type"]) (.str ty) := hty
          obtain ⟨c, hc, h⟩ := at_cons.1 hty
          obtain ⟨c', hc', -⟩ := at_cons.1 h
          exact hno c' (at_cons.2 ⟨c, hc, hc'⟩)
        · rw [ho]
          dsimp only [Option.getD_some, Val.getD]
          rw [Val.WF] at hwo
          cases hty : dlookup (Key.str "Type") o with
          | none =>
            refine ⟨[], rfl, fun x => ?_⟩
            simp only [List.not_mem_nil, false_iff]
            rintro ⟨r', a', e, -, ⟨ty, hty', -⟩, -⟩
            simp only [Val.list.injEq, List.cons.injEq, Val.str.injEq, and_true] at e
            obtain ⟨rfl, rfl⟩ := e
            rw [dlookup_of_mem hwo.1 ((hkey _ _).1 hty')] at hty
            cases hty
          | some u =>
            have hum := (hkey "Type" u).2 (dlookup_mem hty)
            obtain ⟨ty, rfl⟩ := hs.type r u hum
            dsimp only [Option.getD_some]
            have hiff : ListAttribute attrs (.dict top) r a ↔ ty ≠ "" ∧ attrs ty a = some "List" := by
              constructor
              · rintro ⟨ty', h1, h2, h3⟩
                cases at_det hw h1 hum
                exact ⟨h2, h3⟩
              · rintro ⟨h2, h3⟩
                exact ⟨ty, hum, h2, h3⟩
            have hres : ∀ x, (∃ r' a', Val.list [.str r, .str a] = .list [.str r', .str a'] ∧ InOutput p "Fn::GetAtt" ∧ ListAttribute attrs (.dict top) r' a' ∧ ¬ JoinedAt p ∧
                x = (p, Val.list [.str r, .str a])) ↔ ((ty ≠ "" ∧ attrs ty a = some "List") ∧ ¬ JoinedAt p) ∧ x = (p, Val.list [.str r, .str a]) := by
              intro x
              constructor
              · rintro ⟨r', a', e, -, h1, h2, h3⟩
                simp only [Val.list.injEq, List.cons.injEq, Val.str.injEq, and_true] at e
                obtain ⟨rfl, rfl⟩ := e
                exact ⟨⟨hiff.1 h1, h2⟩, h3⟩
              · rintro ⟨⟨h1, h2⟩, h3⟩
                exact ⟨r, a, rfl, hin, hiff.2 h1, h2, h3⟩
            simp only [hres]
            by_cases hne : ty = ""
            · subst hne
              refine ⟨[], rfl, fun x => by simp⟩
            · rw [if_pos (by simpa [Val.truthy] using hne)]
              dsimp only [attributeType, hashName]
              by_cases hl : attrs ty a = some "List"
              · rw [if_pos hl]
                obtain ⟨b, hb, hbi⟩ := notJoined_spec hin
                rw [hb]
                cases b with
                | false =>
                  refine ⟨[], rfl, fun x => ?_⟩
                  have : JoinedAt p := by
                    by_contra hc
                    exact Bool.false_ne_true (hbi.2 hc)
                  simp [this]
                | true =>
                  refine ⟨[(p, _)], rfl, fun x => ?_⟩
                  simp [hne, hl, hbi.1 rfl]
              · rw [if_neg hl]
                exact ⟨[], rfl, fun x => by simp [hl]⟩
      | _ => exact ⟨[], rfl, fun x => by simp⟩
    · exact ⟨[], rfl, fun x => by simp⟩
  · rw [if_neg hi]
    refine ⟨[], rfl, fun x => ?_⟩
    simp only [List.not_mem_nil, false_iff]
    rintro ⟨r, a, -, hin, -⟩
    exact hi ((inOutput_iff hk.1 (by decide) (by decide)).2 (.inl hin))

theorem listParameter_spec {top : List (Key × Val)} (hw : (Val.dict top).WF) {globals : Val} (hs : OutputShape (.dict top) globals)
    {p : Path} {w : Val} (hk : KeyAt (.dict top) globals "Ref" p w) :
    ∃ l, listParameter (.dict top) (p, w) = .ok l ∧ ∀ x, x ∈ l ↔ ∃ s, w = .str s ∧ InOutput p "Ref" ∧ ListTypedParameter (.dict top) s ∧ ¬ JoinedAt p ∧ x = (p, w) := by
  unfold listParameter
  by_cases hi : inOutputValue (p, w) = true
  · rw [if_pos hi]
    rcases (inOutput_iff hk.1 (by decide) (by decide)).1 hi with hin | ⟨rfl, rfl⟩
    · cases w with
      | str s =>
        obtain ⟨ps, hg, hps⟩ := section_lookup hw hs.parameters hs.parameter s
        dsimp only
        rw [hg]
        dsimp only [Val.getD]
        have hres : ∀ x, (∃ s', Val.str s = .str s' ∧ InOutput p "Ref" ∧ ListTypedParameter (.dict top) s' ∧ ¬ JoinedAt p ∧ x = (p, Val.str s)) ↔
            (ListTypedParameter (.dict top) s ∧ ¬ JoinedAt p) ∧ x = (p, Val.str s) := by
          intro x
          constructor
          · rintro ⟨s', e, -, h1, h2, h3⟩
            cases e
            exact ⟨⟨h1, h2⟩, h3⟩
          · rintro ⟨⟨h1, h2⟩, h3⟩
            exact ⟨s, rfl, hin, h1, h2, h3⟩
        simp only [hres]
        rcases hps with ⟨hn, hno⟩ | ⟨o, ho, hwo, hat, hkey⟩
        · rw [hn]
          refine ⟨[], rfl, fun x => ?_⟩
          simp only [List.not_mem_nil, false_iff]
          rintro ⟨⟨⟨ty, hty, -⟩, -⟩, -⟩
          obtain ⟨c, hc, h⟩ := at_cons.1 hty
          obtain ⟨c', hc', -⟩ := at_cons.1 h
          exact hno c' (at_cons.2 ⟨c, hc, hc'⟩)
        · rw [ho]
          rw [Val.WF] at hwo
          dsimp only [Option.getD_some]
          cases hty : dlookup (Key.str "Type") o with
          | none =>
            have hnot : ¬ ListTypedParameter (.dict top) s := by
              rintro ⟨ty, h1, -⟩
              rw [dlookup_of_mem hwo.1 ((hkey _ _).1 h1)] at hty
              cases hty
            refine ⟨[], ?_, fun x => by simp [hnot]⟩
            split <;> rfl
          | some u =>
            have hum := (hkey "Type" u).2 (dlookup_mem hty)
            obtain ⟨ty, rfl⟩ := hs.ptype s u hum
            have hiff : ListTypedParameter (.dict top) s ↔ startsWith ty "List<" = true := by
              unfold startsWith
              rw [List.isPrefixOf_iff_prefix]
              constructor
              · rintro ⟨ty', h1, h2⟩
                cases at_det hw h1 hum
                exact h2
              · exact fun h => ⟨ty, hum, h⟩
            rw [if_pos (by
              cases o with
              | nil => cases hty
              | cons a o => rfl)]
            dsimp only [Option.getD_some]
            rw [hiff]
            by_cases hl : startsWith ty "List<" = true
            · have hne : (Val.str ty).truthy = true := by
                simp only [Val.truthy, bne_iff_ne]
                rintro rfl
                revert hl
                decide
              rw [if_pos hne, if_pos hl]
              obtain ⟨b, hb, hbi⟩ := notJoined_spec hin
              rw [hb]
              refine ⟨_, rfl, fun x => ?_⟩
              rw [← hbi]
              cases b <;> simp [hl]
            · refine ⟨[], ?_, fun x => by simp [hl]⟩
              rw [if_neg hl]
              split <;> rfl
      | _ => exact ⟨[], rfl, fun x => by simp⟩
    · exact absurd hk hs.noRef
  · rw [if_neg hi]
    refine ⟨[], rfl, fun x => ?_⟩
    simp only [List.not_mem_nil, false_iff]
    rintro ⟨s, -, hin, -⟩
    exact hi ((inOutput_iff hk.1 (by decide) (by decide)).2 (.inl hin))

/-- C118: E6003 finds exactly the list attributes and the list parameters in the values of outputs, but for those in `Fn::Join` and those that are the second argument of a function. -/
theorem C118_values_partial {attrs : String → String → Option String} {top : List (Key × Val)} (hw : (Val.dict top).WF) {globals : Val} (hs : OutputShape (.dict top) globals) :
    ∃ l, outputValueRule attrs (.dict top) globals = .ok l ∧ ∀ x, x ∈ l ↔ ListOutput attrs (.dict top) globals x := by
  obtain ⟨a, a1, a2⟩ := collectM_spec (as := searchDeepKeys "Fn::GetAtt" (.dict top) globals) (f := listAttribute attrs (.dict top))
    (P := fun pw x => ∃ r a, pw.2 = .list [.str r, .str a] ∧ InOutput pw.1 "Fn::GetAtt" ∧ ListAttribute attrs (.dict top) r a ∧ ¬ JoinedAt pw.1 ∧ x = pw)
    (fun ⟨p, w⟩ hm => listAttribute_spec hw hs (mem_keyAt.1 hm))
  obtain ⟨b, b1, b2⟩ := collectM_spec (as := searchDeepKeys "Ref" (.dict top) globals) (f := listParameter (.dict top))
    (P := fun pw x => ∃ s, pw.2 = .str s ∧ InOutput pw.1 "Ref" ∧ ListTypedParameter (.dict top) s ∧ ¬ JoinedAt pw.1 ∧ x = pw)
    (fun ⟨p, w⟩ hm => listParameter_spec hw hs (mem_keyAt.1 hm))
  unfold outputValueRule
  rw [a1]
  dsimp only
  rw [b1]
  refine ⟨_, rfl, fun x => ?_⟩
  rw [List.mem_append, a2, b2]
  constructor
  · rintro (⟨⟨p, w⟩, hm, r, a, e, h1, h2, h3, rfl⟩ | ⟨⟨p, w⟩, hm, s, e, h1, h2, h3, rfl⟩)
    · dsimp only at e
      subst e
      exact .attribute (mem_keyAt.1 hm) h1 h2 h3
    · dsimp only at e
      subst e
      exact .parameter (mem_keyAt.1 hm) h1 h2 h3
  · intro h
    cases h with
    | «attribute» h0 h1 h2 h3 => exact .inl ⟨_, mem_keyAt.2 h0, _, _, rfl, h1, h2, h3, rfl⟩
    | parameter h0 h1 h2 h3 => exact .inr ⟨_, mem_keyAt.2 h0, _, rfl, h1, h2, h3, rfl⟩

/-- C118, as one would want it: a list that comes out of both branches of a condition is found in both. -/
def C118_values_statement : Prop :=
  ∀ attrs (top : List (Key × Val)) l n c r a, (Val.dict top).WF → outputValueRule attrs (.dict top) (.dict []) = .ok l →
    At (.dict top) [.str "Outputs", .str n, .str "Value", .str "Fn::If"] (.list [c, .dict [(.str "Fn::GetAtt", .list [.str r, .str a])], .dict [(.str "Fn::GetAtt", .list [.str r, .str a])]]) →
    ListAttribute attrs (.dict top) r a →
    ([.str "Outputs", .str n, .str "Value", .str "Fn::If", .int 1, .str "Fn::GetAtt"], .list [.str r, .str a]) ∈ l

/-- a list under both branches of a condition -/
def exListOutput : List (Key × Val) :=
  [(.str "Resources", .dict [(.str "R", .dict [(.str "Type", .str "T")])]),
   (.str "Outputs", .dict [(.str "O", .dict [(.str "Value", .dict [(.str "Fn::If", .list [.str "C", .dict [(.str "Fn::GetAtt", .list [.str "R", .str "A"])],
     .dict [(.str "Fn::GetAtt", .list [.str "R", .str "A"])]])])])])]

/-- only the second branch is found -/
theorem exListOutput_found : outputValueRule (fun _ _ => some "List") (.dict exListOutput) (.dict []) =
    .ok [([.str "Outputs", .str "O", .str "Value", .str "Fn::If", .int 2, .str "Fn::GetAtt"], .list [.str "R", .str "A"])] := by decide +kernel

/-- C118: the first branch of a condition is its second argument, and is not looked at. -/
theorem C118_values_violated : ¬ C118_values_statement := by
  intro h
  have := h (fun _ _ => some "List") exListOutput _ "O" (.str "C") "R" "A" (by simp [exListOutput, Val.WF, Val.WFDict, Val.WFList]) exListOutput_found
    (.key (List.mem_cons_of_mem _ List.mem_cons_self) (.key List.mem_cons_self (.key List.mem_cons_self (.key List.mem_cons_self .here))))
    ⟨"T", .key List.mem_cons_self (.key List.mem_cons_self (.key List.mem_cons_self .here)), by decide, rfl⟩
  simp at this

/-- C118: a reference in the place of the outputs to a list parameter with the name `Value` ends E6003 with an error. -/
theorem C118_values_raises {attrs : String → String → Option String} {top : List (Key × Val)} (hw : (Val.dict top).WF) {globals : Val}
    (h : At (.dict top) [.str "Outputs", .str "Ref"] (.str "Value")) {ty : String} (hty : At (.dict top) [.str "Parameters", .str "Value", .str "Type"] (.str ty))
    (hl : "List<".toList <+: ty.toList) : ∃ e, outputValueRule attrs (.dict top) globals = .error e := by
  unfold outputValueRule
  cases ha : collectM (listAttribute attrs (.dict top)) (searchDeepKeys "Fn::GetAtt" (.dict top) globals) with
  | error e => exact ⟨e, rfl⟩
  | ok a =>
    dsimp only
    cases hb : collectM (listParameter (.dict top)) (searchDeepKeys "Ref" (.dict top) globals) with
    | error e => exact ⟨e, rfl⟩
    | ok b =>
      exfalso
      obtain ⟨l', h'⟩ := collectM_each hb ([.str "Outputs", .str "Ref"], .str "Value") (mem_keyAt.2 ⟨⟨[.str "Outputs"], rfl⟩, .inl h⟩)
      have hi : inOutputValue ([.str "Outputs", .str "Ref"], .str "Value") = true := by decide
      unfold listParameter at h'
      rw [if_pos hi] at h'
      cases hty with
      | key m1 hty =>
        have hw1 := at_wf (At.key m1 .here) hw
        cases hty with
        | key m2 hty =>
          have hw2 := at_wf (At.key m2 .here) hw1
          cases hty with
          | key m3 hty =>
            cases hty
            rw [Val.WF] at hw hw1 hw2
            dsimp only [Val.getD] at h'
            rw [dlookup_of_mem hw.1 m1] at h'
            dsimp only [Option.getD_some] at h'
            rw [dlookup_of_mem hw1.1 m2] at h'
            dsimp only [Option.getD_some] at h'
            rename_i o
            rw [if_pos (by
              cases o with
              | nil => cases m3
              | cons a o => rfl)] at h'
            rw [dlookup_of_mem hw2.1 m3] at h'
            dsimp only [Option.getD_some] at h'
            have hs : startsWith ty "List<" = true := by
              unfold startsWith
              rw [List.isPrefixOf_iff_prefix]
              exact hl
            have hne : (Val.str ty).truthy = true := by
              simp only [Val.truthy, bne_iff_ne]
              rintro rfl
              revert hs
              decide
            rw [if_pos hne, if_pos hs] at h'
            cases h'

example : ∃ e, outputValueRule (fun _ _ => none) (.dict [(.str "Parameters", .dict [(.str "Value", .dict [(.str "Type", .str "List<String>")])]), (.str "Outputs", .dict [(.str "Ref", .str "Value")])])
    (.dict []) = .error e :=
  C118_values_raises (ty := "List<String>") (by simp [Val.WF, Val.WFDict]) (.key (List.mem_cons_of_mem _ List.mem_cons_self) (.key List.mem_cons_self .here))
    (.key List.mem_cons_self (.key List.mem_cons_self (.key List.mem_cons_self .here))) (by decide)

/-- the hypotheses of `C118_values_partial` are met -/
example : OutputShape (.dict exListOutput) (.dict []) := by
  have hw : (Val.dict exListOutput).WF := by simp [exListOutput, Val.WF, Val.WFDict, Val.WFList]
  have hall : ∀ x ∈ searchDeepKeys "Fn::GetAtt" (.dict exListOutput) (.dict []), x.2 = .list [.str "R", .str "A"] := by decide +kernel
  have hrefs : searchDeepKeys "Ref" (.dict exListOutput) (.dict []) = [] := by decide +kernel
  have hr : At (.dict exListOutput) [.str "Resources"] (.dict [(.str "R", .dict [(.str "Type", .str "T")])]) := at_dict_one.2 List.mem_cons_self
  refine ⟨?_, ?_, ?_, ?_, ?_, ?_, ?_, ?_⟩
  · intro p xs h _
    exact ⟨"R", "A", Val.list.inj (hall (p, _) (mem_keyAt.2 h))⟩
  · exact fun v h => ⟨_, at_det hw h hr⟩
  · intro r v h
    obtain ⟨c, hc, h⟩ := at_cons.1 h
    cases at_det hw hc hr
    have := at_dict_one.1 h
    simp at this
    exact ⟨_, this.2⟩
  · intro r v h
    obtain ⟨c, hc, h⟩ := at_cons.1 h
    cases at_det hw hc hr
    obtain ⟨c, hc, h⟩ := at_cons.1 h
    have := at_dict_one.1 hc
    simp at this
    obtain ⟨-, rfl⟩ := this
    have := at_dict_one.1 h
    simp at this
    exact ⟨_, this⟩
  all_goals
    first
    | (intro v h
       have := at_dict_one.1 h
       simp [exListOutput] at this)
    | (intro s v h
       obtain ⟨c, hc, h⟩ := at_cons.1 h
       have := at_dict_one.1 hc
       simp [exListOutput] at this)
    | (intro h
       have := mem_keyAt.2 h
       rw [hrefs] at this
       cases this)

end CfnLint
