import Verif.Model.CondRules
import Verif.Spec.CondRules
import Verif.Lemmas.Graph
import Verif.Lemmas.Refs
import Verif.Lemmas.CondMain
import Verif.Props.Template
namespace CfnLint
open Spec

theorem at_split {t w : Val} {q : Path} : ∀ {p : Path}, At t (p ++ q) w → ∃ u, At t p u ∧ At u q w := by
  intro p
  induction p generalizing t with
  | nil => intro h; exact ⟨t, .here, h⟩
  | cons k p ih =>
    intro h
    cases h with
    | key hm h => obtain ⟨u, h1, h2⟩ := ih h; exact ⟨u, .key hm h1, h2⟩
    | idx hx h => obtain ⟨u, h1, h2⟩ := ih h; exact ⟨u, .idx hx h1, h2⟩

/-- one step into an object with distinct keys -/
theorem at_obj {kvs : List (Key × Val)} (hw : (Val.dict kvs).WF) {k : Key} {w : Val} :
    At (.dict kvs) [k] w ↔ dlookup k kvs = some w := by
  rw [at_dict_one]
  exact ⟨dlookup_of_mem hw.1, dlookup_mem⟩

/-- resources with a type -/
theorem mem_resources_any {t : Val} {name : Key} {r : List (Key × Val)} :
    (name, r) ∈ resourcesOfType [] t ↔ ∃ top rs ty, t = .dict top ∧
      dlookup (Key.str "Resources") top = some (.dict rs) ∧ (name, Val.dict r) ∈ rs ∧
      dlookup (Key.str "Type") r = some ty ∧ ty ≠ .none := by
  unfold resourcesOfType
  cases t with
  | dict top =>
    dsimp only
    cases hl : dlookup (Key.str "Resources") top with
    | none => simp [hl]
    | some v =>
      cases v with
      | dict rs =>
        dsimp only
        simp only [List.mem_filterMap, Prod.exists]
        constructor
        · rintro ⟨k, v, hm, hv⟩
          cases v with
          | dict r' =>
            dsimp only at hv
            split at hv
            · rename_i hc
              simp only [Option.some.injEq, Prod.mk.injEq] at hv
              obtain ⟨rfl, rfl⟩ := hv
              simp only [List.any_nil, List.isEmpty_nil, Bool.true_and, Bool.false_or, bne_iff_ne] at hc
              cases hd : dlookup (Key.str "Type") r' with
              | none => rw [hd] at hc; simp at hc
              | some x =>
                rw [hd] at hc
                exact ⟨top, rs, x, rfl, hl, hm, rfl, hc⟩
            · cases hv
          | _ => cases hv
        · rintro ⟨top', rs', ty, h1, h2, h3, h4, h5⟩
          cases h1
          rw [hl] at h2
          cases h2
          exact ⟨name, _, h3, by simp [h4, h5]⟩
      | _ =>
        simp only [List.not_mem_nil, false_iff]
        rintro ⟨top', rs', ty, h1, h2, _⟩
        cases h1
        rw [hl] at h2
        cases h2
  | _ =>
    simp only [List.not_mem_nil, false_iff]
    rintro ⟨top', rs', ty, h1, _⟩
    cases h1

/-- the condition of a resource with a type -/
theorem resource_cond {t : Val} (hw : t.WF) (hs : CondShape t) {r : Key} {c : Val} :
    (∃ o, (r, o) ∈ resourcesOfType [] t ∧ dlookup (Key.str "Condition") o = some c) ↔
      At t [.str "Resources", r, .str "Condition"] c := by
  constructor
  · rintro ⟨o, hm, hc⟩
    obtain ⟨top, rs, ty, rfl, h1, h2, _, _⟩ := mem_resources_any.1 hm
    exact .key (dlookup_mem h1) (.key h2 (.key (dlookup_mem hc) .here))
  · intro h
    obtain ⟨top, rfl⟩ := hs.top
    have h' : At (.dict top) ([.str "Resources"] ++ [r, .str "Condition"]) c := h
    obtain ⟨u, h1, h2⟩ := at_split h'
    obtain ⟨rs, rfl⟩ := hs.resourcesObj u h1
    have h3 : At (.dict rs) ([r] ++ [.str "Condition"]) c := h2
    obtain ⟨o, h4, h5⟩ := at_split h3
    have hr : At (.dict top) [.str "Resources", r] o := at_append h1 h4
    obtain ⟨ty, h6, h7⟩ := hs.resources r o hr ⟨c, h5⟩
    have hwo := at_wf hr hw
    cases o with
    | dict o =>
      refine ⟨o, mem_resources_any.2 ⟨top, rs, ty, rfl, (at_obj hw).1 h1, at_dict_one.1 h4,
        (at_obj hwo).1 h6, h7⟩, (at_obj hwo).1 h5⟩
    | _ => cases h5

theorem head_conditions {p q : Path} {key : String} (hp : p = q ++ [Key.str key]) (hk : key ≠ "Conditions") :
    inConditions p = true ↔ ∃ q', p = .str "Conditions" :: q' ++ [.str key] := by
  unfold inConditions
  subst hp
  cases q with
  | nil =>
    simp only [List.nil_append, List.head?_cons, beq_iff_eq, Option.some.injEq, Key.str.injEq]
    constructor
    · intro h; exact absurd h hk
    · rintro ⟨q', h⟩; simp at h
  | cons k q =>
    simp only [List.cons_append, List.head?_cons, beq_iff_eq, Option.some.injEq, List.cons.injEq]
    constructor
    · intro h; exact ⟨q, h, rfl⟩
    · rintro ⟨q', h, _⟩; exact h

theorem mem_conditionRefs {t : Val} (hw : t.WF) {c : String} :
    (∃ f ∈ (searchDeepKeys "Condition" t (.dict [])).filter (fun f => inConditions f.1), f.2 = .str c) ↔
      ∃ p, At t (.str "Conditions" :: p ++ [.str "Condition"]) (.str c) := by
  constructor
  · rintro ⟨⟨p, v⟩, hf, hv⟩
    obtain ⟨hf, hc⟩ := List.mem_filter.1 hf
    obtain ⟨ha, q, hq⟩ := ((C27_search_partial "Condition" t hw).1 p v).1 hf
    obtain ⟨q', hq'⟩ := (head_conditions hq (by decide)).1 hc
    dsimp only at hv
    subst hv
    exact ⟨q', hq' ▸ ha⟩
  · rintro ⟨p, ha⟩
    refine ⟨(.str "Conditions" :: p ++ [.str "Condition"], .str c), List.mem_filter.2 ⟨?_, ?_⟩, rfl⟩
    · exact ((C27_search_partial "Condition" t hw).1 _ _).2 ⟨ha, _, rfl⟩
    · rfl

theorem if_cond {t : Val} (hs : CondShape t) {p : Path} {c : String} :
    At t (p ++ [.str "Fn::If", .int 0]) (.str c) ↔
      ∃ rest, At t (p ++ [.str "Fn::If"]) (.list (.str c :: rest)) := by
  have e : p ++ [Key.str "Fn::If", .int 0] = (p ++ [.str "Fn::If"]) ++ [.int 0] := by simp
  constructor
  · intro h
    rw [e] at h
    obtain ⟨u, h1, h2⟩ := at_split h
    obtain ⟨c', rest, rfl⟩ := hs.ifs p u h1
    generalize hk : Key.int 0 = k at h2
    cases h2 with
    | @idx xs i x p w hx h3 =>
      simp only [Key.int.injEq] at hk
      have : i = 0 := by omega
      subst this
      simp only [List.getElem?_cons_zero, Option.some.injEq] at hx
      subst hx
      cases h3
      exact ⟨rest, h1⟩
  · rintro ⟨rest, h⟩
    rw [e]
    exact at_append h (.idx (i := 0) rfl .here)

/-- the outputs and their conditions -/
theorem outputs_cond {t : Val} (hw : t.WF) (hs : CondShape t) :
    ∃ os, outputsOf t = .ok os ∧ (∀ k w, (k, w) ∈ os → ∃ o, w = .dict o ∧ (o.map Prod.fst).Nodup ∧
        ∀ c, dlookup (Key.str "Condition") o = some c → ∃ s, c = .str s) ∧
      ∀ k c, At t [.str "Outputs", k, .str "Condition"] (.str c) ↔
        ∃ o, (k, Val.dict o) ∈ os ∧ dlookup (Key.str "Condition") o = some (.str c) := by
  obtain ⟨top, rfl⟩ := hs.top
  unfold outputsOf Val.getD
  dsimp only
  cases hl : dlookup (Key.str "Outputs") top with
  | none =>
    refine ⟨[], rfl, by simp, ?_⟩
    intro k c
    simp only [List.not_mem_nil, false_and, exists_false, iff_false]
    intro h
    have h' : At (.dict top) ([.str "Outputs"] ++ [k, .str "Condition"]) (.str c) := h
    obtain ⟨u, h1, _⟩ := at_split h'
    rw [at_obj hw, hl] at h1
    cases h1
  | some v =>
    obtain ⟨os, rfl, ho⟩ := hs.outputs v ((at_obj hw).2 hl)
    have hwo : (Val.dict os).WF := at_wf ((at_obj hw).2 hl) hw
    refine ⟨os, rfl, ?_, ?_⟩
    · intro k w hm
      obtain ⟨o, rfl, hc⟩ := ho k w hm
      exact ⟨o, rfl, (wfDict_mem_cond hwo.2 hm).1, fun c h => hc c (dlookup_mem h)⟩
    · intro k c
      constructor
      · intro h
        have h' : At (.dict top) ([.str "Outputs"] ++ ([k] ++ [.str "Condition"])) (.str c) := h
        obtain ⟨u, h1, h2⟩ := at_split h'
        rw [at_obj hw, hl] at h1
        cases h1
        obtain ⟨w, h3, h4⟩ := at_split h2
        have hm := at_dict_one.1 h3
        obtain ⟨o, rfl, _⟩ := ho k w hm
        exact ⟨o, hm, (at_obj (wfDict_mem_cond hwo.2 hm)).1 h4⟩
      · rintro ⟨o, hm, hc⟩
        exact .key (dlookup_mem hl) (.key hm (.key (dlookup_mem hc) .here))

end CfnLint
