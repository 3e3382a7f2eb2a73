import Verif.Model.PolicyUpdate
import Verif.Props.Patch
/-
Property C143: the update of the IAM policies.
-/
namespace CfnLint
open Spec

namespace Spec

/-- `b` is the part of the text `s` after the first `sep`, up to the next one if there is one -/
def SecondPart (sep s b : List Char) : Prop :=
  ∃ a c, s = a ++ (sep ++ (b ++ c)) ∧ (∀ x y, s = x ++ (sep ++ y) → a.length ≤ x.length) ∧
    ((c = [] ∧ ∀ x y, b ≠ x ++ (sep ++ y)) ∨
      ((∃ c', c = sep ++ c') ∧ ∀ x y, b ++ c = x ++ (sep ++ y) → b.length ≤ x.length))

/-- the place of the actions of a service -/
def serviceActions (service : String) : Path := [.str "serviceMap", .str service, .str "Actions"]

/-- `v'` is `v` with some actions added to those of a service, and otherwise the same -/
structure Extended (service : String) (actions : List String) (v v' : Val) : Prop where
  more : ∃ l, At v (serviceActions service) (.list l) ∧ At v' (serviceActions service) (.list (l ++ actions.map .str))
  rest : ∀ p w, ¬ p <+: serviceActions service → ¬ serviceActions service <+: p → (At v p w ↔ At v' p w)

end Spec

theorem cutAtText_some {sep : List Char} : ∀ {s a r : List Char}, cutAtText sep s = some (a, r) →
    s = a ++ (sep ++ r) ∧ ∀ x y, s = x ++ (sep ++ y) → a.length ≤ x.length
  | [], a, r, h => by
    rw [cutAtText] at h
    split at h
    · rename_i hp
      injection h with h
      injection h with h1 h2
      subst h1 h2
      have : sep = [] := by
        obtain ⟨t, ht⟩ := List.isPrefixOf_iff_prefix.1 hp
        exact (List.append_eq_nil_iff.1 ht).1
      subst this
      exact ⟨rfl, fun _ _ _ => Nat.zero_le _⟩
    · cases h
  | c :: cs, a, r, h => by
    rw [cutAtText] at h
    split at h
    · rename_i hp
      injection h with h
      injection h with h1 h2
      subst h1 h2
      obtain ⟨t, ht⟩ := List.isPrefixOf_iff_prefix.1 hp
      refine ⟨?_, fun _ _ _ => Nat.zero_le _⟩
      rw [← ht, List.drop_left, List.nil_append]
    · rename_i hp
      cases hc : cutAtText sep cs with
      | none => rw [hc] at h; cases h
      | some x =>
        rw [hc, Option.map_some] at h
        injection h with h
        injection h with h1 h2
        subst h1 h2
        obtain ⟨e, hmin⟩ := cutAtText_some hc
        refine ⟨by rw [e, List.cons_append, ← e, e], ?_⟩
        intro u y hu
        cases u with
        | nil =>
          exact absurd (List.isPrefixOf_iff_prefix.2 ⟨y, hu.symm⟩) hp
        | cons d u =>
          injection hu with _ hu
          exact Nat.succ_le_succ (hmin u y hu)

theorem cutAtText_none {sep : List Char} : ∀ {s : List Char}, cutAtText sep s = none → ∀ x y, s ≠ x ++ (sep ++ y)
  | [], h, x, y, e => by
    rw [cutAtText] at h
    split at h
    · cases h
    · rename_i hp
      have := (List.append_eq_nil_iff.1 e.symm).2
      have := (List.append_eq_nil_iff.1 this).1
      subst this
      exact hp rfl
  | c :: cs, h, x, y, e => by
    rw [cutAtText] at h
    split at h
    · cases h
    · rename_i hp
      cases x with
      | nil => exact hp (List.isPrefixOf_iff_prefix.2 ⟨y, e.symm⟩)
      | cons d x =>
        injection e with _ e
        cases hc : cutAtText sep cs with
        | none => exact cutAtText_none hc x y e
        | some z => rw [hc] at h; cases h

/-- **C143** The part of the download that is read is the one after the first occurrence of the words, up to the next. -/
theorem C143_text {sep s b : List Char} : secondPart sep s = .ok b → SecondPart sep s b := by
  intro h
  unfold secondPart at h
  cases h1 : cutAtText sep s with
  | none => rw [h1] at h; cases h
  | some x =>
    obtain ⟨a, r⟩ := x
    rw [h1] at h
    dsimp only at h
    obtain ⟨e, hmin⟩ := cutAtText_some h1
    cases h2 : cutAtText sep r with
    | none =>
      rw [h2] at h
      injection h with h
      subst h
      exact ⟨a, [], by rw [List.append_nil]; exact e, hmin, .inl ⟨rfl, cutAtText_none h2⟩⟩
    | some y =>
      obtain ⟨b', c⟩ := y
      rw [h2] at h
      injection h with h
      subst h
      obtain ⟨e2, hmin2⟩ := cutAtText_some h2
      exact ⟨a, sep ++ c, by rw [← e2]; exact e, hmin, .inr ⟨⟨c, rfl⟩, fun x y hx => hmin2 x y (e2.trans hx)⟩⟩

/-- **C143** A download without the words is an error. -/
theorem C143_no_words {sep s : List Char} (h : ∀ x y, s ≠ x ++ (sep ++ y)) : ∃ e, secondPart sep s = .error e := by
  unfold secondPart
  cases h1 : cutAtText sep s with
  | none => exact ⟨_, rfl⟩
  | some x => exact absurd (cutAtText_some h1).1 (h _ _)

theorem at_object {kvs : List (Key × Val)} (hw : (kvs.map Prod.fst).Nodup) {k : Key} {p : Path} {w : Val} :
    At (.dict kvs) (k :: p) w ↔ ∃ x, dlookup k kvs = some x ∧ At x p w := by
  constructor
  · intro h
    cases h with
    | key h1 h2 => exact ⟨_, dlookup_of_mem hw h1, h2⟩
  · rintro ⟨x, h1, h2⟩
    exact .key (dlookup_mem h1) h2

/-- one level of an assignment: what is elsewhere stays -/
theorem at_assign {kvs : List (Key × Val)} (hw : (kvs.map Prod.fst).Nodup) {k : Key} {x x' : Val} {P : Path}
    (hx : dlookup k kvs = some x)
    (h : ∀ p w, ¬ p <+: P → ¬ P <+: p → (At x p w ↔ At x' p w)) (p : Path) (w : Val) (h1 : ¬ p <+: k :: P) (h2 : ¬ k :: P <+: p) :
    At (.dict kvs) p w ↔ At (.dict (dset k x' kvs)) p w := by
  cases p with
  | nil => exact absurd (List.nil_prefix) h1
  | cons k' p =>
    rw [at_object hw, at_object (dset_nodup _ _ hw), dlookup_dset]
    by_cases hk : k = k'
    · subst hk
      rw [List.cons_prefix_cons] at h1 h2
      rw [if_pos rfl, hx]
      have := h p w (fun e => h1 ⟨rfl, e⟩) (fun e => h2 ⟨rfl, e⟩)
      constructor
      · rintro ⟨_, e, h⟩; cases e; exact ⟨_, rfl, this.1 h⟩
      · rintro ⟨_, e, h⟩; cases e; exact ⟨_, rfl, this.2 h⟩
    · rw [if_neg hk]

theorem subscript_ok {v w : Val} {key : String} (h : subscript v key = .ok w) : ∃ kvs, v = .dict kvs ∧ dlookup (Key.str key) kvs = some w := by
  unfold subscript at h
  split at h
  · split at h
    · injection h with h
      subst h
      exact ⟨_, rfl, by assumption⟩
    · cases h
  · cases h

theorem extendActions_spec {service : String} {actions : List String} {v v' : Val} (hw : v.WF)
    (h : extendActions service actions v = .ok v') : v'.WF ∧ Extended service actions v v' := by
  unfold extendActions at h
  cases h1 : subscript v "serviceMap" with
  | error e => rw [h1] at h; cases h
  | ok sm =>
    rw [h1] at h
    dsimp only at h
    cases h2 : subscript sm service with
    | error e => rw [h2] at h; cases h
    | ok svc =>
      rw [h2] at h
      dsimp only at h
      cases h3 : subscript svc "Actions" with
      | error e => rw [h3] at h; cases h
      | ok a =>
        rw [h3] at h
        cases a with
        | list l =>
          simp only at h
          injection h with h
          subst h
          obtain ⟨top, rfl, e1⟩ := subscript_ok h1
          obtain ⟨sms, rfl, e2⟩ := subscript_ok h2
          obtain ⟨svcs, rfl, e3⟩ := subscript_ok h3
          have hw2 := wf_dict_child hw e1
          have hw3 := wf_dict_child hw2 e2
          have hw4 := wf_dict_child hw3 e3
          have hl : (Val.list (l ++ actions.map .str)).WF := by
            rw [Val.WF] at hw4 ⊢
            have strs : ∀ acts : List String, Val.WFList (acts.map .str) := by
              intro acts
              induction acts with
              | nil => simp [Val.WFList]
              | cons a as ih => simp only [List.map_cons, Val.WFList, Val.WF, true_and]; exact ih
            have go : ∀ xs : List Val, Val.WFList xs → Val.WFList (xs ++ actions.map .str) := by
              intro xs
              induction xs with
              | nil => intro _; exact strs _
              | cons x xs ih =>
                intro hxs
                rw [Val.WFList] at hxs
                rw [List.cons_append, Val.WFList]
                exact ⟨hxs.1, ih hxs.2⟩
            exact go l hw4
          simp only [assign]
          refine ⟨dset_wf hw (dset_wf hw2 (dset_wf hw3 hl)), ?_, ?_⟩
          · refine ⟨l, .key (dlookup_mem e1) (.key (dlookup_mem e2) (.key (dlookup_mem e3) .here)), ?_⟩
            have hit : ∀ (k : Key) (x : Val) (kvs : List (Key × Val)), dlookup k (dset k x kvs) = some x := by
              intro k x kvs
              rw [dlookup_dset, if_pos rfl]
            exact .key (dlookup_mem (hit _ _ _)) (.key (dlookup_mem (hit _ _ _)) (.key (dlookup_mem (hit _ _ _)) .here))
          · refine at_assign (wf_dict_nodup hw) e1 (at_assign (wf_dict_nodup hw2) e2 (at_assign (wf_dict_nodup hw3) e3 ?_))
            intro p w h1 h2
            exact absurd List.nil_prefix h2
        | _ => simp only at h; cases h

/-- **C143** What is written is what was downloaded with three actions more: two at the end of the actions of API Gateway,
one at the end of those of Kinesis Video Streams. Everything else is as it was downloaded. -/
theorem C143_content {loads : String → PyM Val} (hloads : ∀ s v, loads s = .ok v → v.WF) {text : String} {v' : Val}
    (h : policyContent loads text = .ok v') :
    ∃ part v, SecondPart "app.PolicyEditorConfig=".toList text.toList part ∧ loads (String.ofList part) = .ok v ∧
      (∃ l, At v (serviceActions "Manage Amazon API Gateway") (.list l) ∧
        At v' (serviceActions "Manage Amazon API Gateway") (.list (l ++ [.str "HEAD", .str "OPTIONS"]))) ∧
      (∃ l, At v (serviceActions "Amazon Kinesis Video Streams") (.list l) ∧
        At v' (serviceActions "Amazon Kinesis Video Streams") (.list (l ++ [.str "StartStreamEncryption"]))) ∧
      ∀ p w, (∀ s ∈ ["Manage Amazon API Gateway", "Amazon Kinesis Video Streams"], ¬ p <+: serviceActions s ∧ ¬ serviceActions s <+: p) →
        (At v p w ↔ At v' p w) := by
  unfold policyContent at h
  split at h
  · cases h
  · rename_i part hp
    split at h
    · cases h
    · rename_i v hv
      split at h
      · cases h
      · rename_i v1 h1
        obtain ⟨hw1, x1⟩ := extendActions_spec (hloads _ _ hv) h1
        obtain ⟨_, x2⟩ := extendActions_spec hw1 h
        refine ⟨part, v, C143_text hp, hv, ?_, ?_, ?_⟩
        · obtain ⟨l, a, b⟩ := x1.more
          exact ⟨l, a, (x2.rest _ _ (by simp [serviceActions]) (by simp [serviceActions])).1 b⟩
        · obtain ⟨l, a, b⟩ := x2.more
          exact ⟨l, (x1.rest _ _ (by simp [serviceActions]) (by simp [serviceActions])).2 a, b⟩
        · intro p w hp
          have a := hp "Manage Amazon API Gateway" (by simp)
          have b := hp "Amazon Kinesis Video Streams" (by simp)
          exact (x1.rest p w a.1 a.2).trans (x2.rest p w b.1 b.2)

/-- **C143** An update that fails leaves the file as it was, at every moment. -/
theorem C143_failed {loads : String → PyM Val} {download : PyM String} {file : File Val} {states : List (File Val)} {e : PyErr}
    (h : updatePolicies loads download file = (states, .error e)) : ∀ s ∈ states, s = file := by
  unfold updatePolicies at h
  split at h
  · injection h with h _; subst h; simp
  · split at h
    · injection h with h _; subst h; simp
    · injection h with _ h; cases h

/-- **C143** An update that does not fail ends with the new contents in the file. -/
theorem C143_done {loads : String → PyM Val} {download : PyM String} {file : File Val} {states : List (File Val)}
    (h : updatePolicies loads download file = (states, .ok ())) :
    ∃ text v, download = .ok text ∧ policyContent loads text = .ok v ∧ states.getLast? = some (.whole v) := by
  unfold updatePolicies at h
  split at h
  · injection h with _ h; cases h
  · split at h
    · injection h with _ h; cases h
    · rename_i text v hv
      injection h with h _
      subst h
      exact ⟨_, _, rfl, hv, rfl⟩

/-- **C143**, the full statement: whenever the update is stopped, the file is whole: as it was or as it is to be. -/
def C143_statement : Prop :=
  ∀ (loads : String → PyM Val) (download : PyM String) (v0 : Val), ∀ s ∈ (updatePolicies loads download (.whole v0)).1,
    s = .whole v0 ∨ ∃ text v, download = .ok text ∧ policyContent loads text = .ok v ∧ s = .whole v

/-- **C143**, what holds: the same but for one moment. Missing for the full statement: the file is emptied before the
new contents are written. -/
theorem C143_states_partial {loads : String → PyM Val} {download : PyM String} {v0 : Val} {s : File Val}
    (hs : s ∈ (updatePolicies loads download (.whole v0)).1) :
    s = .whole v0 ∨ ∃ text v, download = .ok text ∧ policyContent loads text = .ok v ∧ (s = .torn ∨ s = .whole v) := by
  unfold updatePolicies at hs
  split at hs
  · exact .inl (List.mem_singleton.1 hs)
  · split at hs
    · exact .inl (List.mem_singleton.1 hs)
    · rename_i text v hv
      simp only [List.mem_cons, List.not_mem_nil, or_false] at hs
      rcases hs with rfl | rfl | rfl
      · exact .inl rfl
      · exact .inr ⟨_, _, rfl, hv, .inl rfl⟩
      · exact .inr ⟨_, _, rfl, hv, .inr rfl⟩

/-! ### Examples -/

def exPolicyBase : Val :=
  .dict [(.str "serviceMap", .dict [
    (.str "Manage Amazon API Gateway", .dict [(.str "StringPrefix", .str "apigateway"), (.str "Actions", .list [.str "GET"])]),
    (.str "Amazon Kinesis Video Streams", .dict [(.str "Actions", .list [])])])]

theorem exPolicyBase_wf : exPolicyBase.WF := by simp [exPolicyBase, Val.WF, Val.WFDict, Val.WFList]

def exPolicyLoads : String → PyM Val := fun _ => .ok exPolicyBase

theorem exPolicy_content : ∃ v, policyContent exPolicyLoads "app.PolicyEditorConfig={}" = .ok v := by
  have : (policyContent exPolicyLoads "app.PolicyEditorConfig={}").toOption.isSome = true := by decide +kernel
  cases h : policyContent exPolicyLoads "app.PolicyEditorConfig={}" with
  | error e => rw [h] at this; cases this
  | ok v => exact ⟨v, rfl⟩

/-- **C143** An update that is stopped at the wrong moment leaves an empty file. -/
theorem C143_torn_violated : ¬ C143_statement := by
  intro h
  obtain ⟨v, hv⟩ := exPolicy_content
  have := h exPolicyLoads (.ok "app.PolicyEditorConfig={}") .none .torn (by
    unfold updatePolicies
    simp only [hv]
    simp)
  rcases this with h | ⟨_, _, _, _, h⟩ <;> cases h

/-- the hypotheses of `C143_content` are met -/
example : ∃ v', policyContent exPolicyLoads "app.PolicyEditorConfig={}" = .ok v' ∧ ∃ l,
    At v' (serviceActions "Manage Amazon API Gateway") (.list (l ++ [.str "HEAD", .str "OPTIONS"])) := by
  obtain ⟨v, hv⟩ := exPolicy_content
  obtain ⟨_, _, _, _, ⟨l, _, h⟩, _⟩ := C143_content (fun s v h => by injection h with h; subst h; exact exPolicyBase_wf) hv
  exact ⟨v, hv, l, h⟩

/-- a part between two occurrences -/
example : secondPart "=".toList "a=b=c".toList = .ok "b".toList := by decide +kernel

example : SecondPart "=".toList "a=b=c".toList "b".toList := C143_text (by decide +kernel)

/-- a download without the services is an error, and the file stays -/
example : updatePolicies (fun _ => .ok (.dict [])) (.ok "app.PolicyEditorConfig={}") .missing = ([.missing], .error (.keyError "serviceMap")) := by
  have : policyContent (fun _ => .ok (.dict [])) "app.PolicyEditorConfig={}" = .error (.keyError "serviceMap") := by decide +kernel
  unfold updatePolicies
  simp only [this]

end CfnLint
