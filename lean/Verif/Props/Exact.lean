import Verif.Props.Silent
import Verif.Props.CallsClosed
import Verif.Props.DeclsClosed
import Verif.Props.KindsClosed
/-
Property C147: with rules that are called on the whole template, status 0 is the conjunction of what the rules ask; for fourteen rules of the
linter this is spelt out.
-/
namespace CfnLint

open Spec

namespace Spec

/-- a rule that is called on the whole template: its id, its function, and the templates it has nothing to say about -/
structure WholeCheck where
  id : String
  rule : Val → PyM (List (Path × String))
  right : Val → Prop

/-- the rule says exactly when a template is not right: it finds something, or fails so that it is seen -/
def WholeCheck.Tells (c : WholeCheck) : Prop :=
  ∀ top, (Val.dict top).WF → ((c.rule (.dict top) = .ok [] ∨ ∃ s, c.rule (.dict top) = .error (.templateAttributeError s)) ↔ c.right (.dict top))

/-- the rules with the ids of the checks do what the checks do, and nothing else -/
def BehaveAs (checks : List WholeCheck) (beh : RuleObj → Behaviour) : Prop :=
  ∀ r, ∀ c ∈ checks, r.info.id = c.id → (beh r).whole = some c.rule ∧ (beh r).properties = none ∧ (beh r).subProperties = none

end Spec

section Status

variable {objs : List RuleObj} {args : Sources} {all : List String} {regions : List Val} {S : TypeSpecs} {beh : RuleObj → Behaviour}
  {name : Val → String} {mark : Val → MVal} {print : List Match → PyM Unit} {ds : List Decoded} {checks : List WholeCheck}

/-- **C147** The rules in force found nothing in a template exactly if it is right for each of them. -/
theorem C147_found (h : ReadyRun objs args all regions beh mark print ds) (hb : BehaveAs checks beh) (htell : ∀ c ∈ checks, c.Tells)
    (hobjs : ∀ r ∈ objs, ∃ c ∈ checks, r.info = { id := c.id }) {d : Decoded} (hd : d ∈ ds) :
    NothingFound objs args S beh d.template ↔ ∀ c ∈ checks, InForce objs args d.template { id := c.id } → c.right d.template := by
  obtain ⟨-, hw, top, ht⟩ := h.decoded d hd
  obtain ⟨targs, cfg, b, h1, h2, -⟩ := h.configured d hd
  have hcb : ConfiguredBy args d.template { cfg with incl := addDefaults cfg.incl } := ⟨targs, cfg, h1, h2, rfl⟩
  constructor
  · intro hn c hc ⟨hm, hen⟩
    have hbr := hb { info := { id := c.id } } c hc rfl
    have := hn _ hcb { info := { id := c.id } } hm (hen _ hcb) _ (.whole hbr.1)
    rw [ht] at this hw ⊢
    exact (htell c hc top hw).1 this
  · intro hr cfg' hc' r hmem hen call hcall
    obtain ⟨r0, hr0, e⟩ := List.mem_map.1 hmem
    obtain ⟨c, hc, hi⟩ := hobjs r0 hr0
    have hinfo : r.info = { id := c.id } := by rw [← e, hi]
    have hbr := hb r c hc (by rw [hinfo])
    have hright := hr c hc ⟨hinfo ▸ hmem, fun cfg'' hc'' => by
      obtain ⟨t1, c1, a1, a2, rfl⟩ := hc'
      obtain ⟨t2, c2, b1, b2, rfl⟩ := hc''
      rw [a1] at b1
      cases b1
      rw [a2] at b2
      cases b2
      rw [← hinfo]
      exact hen⟩
    cases hcall with
    | whole hf =>
      rw [hbr.1] at hf
      cases hf
      rw [ht] at hw hright ⊢
      exact (htell c hc top hw).2 hright
    | properties hf => rw [hbr.2.1] at hf; cases hf
    | subProperties hf => rw [hbr.2.2] at hf; cases hf

/-- **C147** Status 0 of the script is the conjunction of what the rules in force ask of the templates. -/
theorem C147_status (h : ReadyRun objs args all regions beh mark print ds) (hb : BehaveAs checks beh) (htell : ∀ c ∈ checks, c.Tells)
    (hobjs : ∀ r ∈ objs, ∃ c ∈ checks, r.info = { id := c.id }) (hids : ∀ r ∈ objs, ∀ x : Match, x.rule = r.info → Levelled x)
    (ht : ∀ d ∈ ds, d.template.truthy = true) (hi : ignoreBadTemplate { args with template := [] } = .ok false)
    (hq : ∀ d ∈ ds, ∀ a, setTemplateArgs d.template = .ok a → quiet a) (hdir : ∀ d ∈ ds, getDirectives (mark d.template) = .ok [])
    (hmand : ∀ d ∈ ds, ∀ cfg, ConfiguredBy args d.template cfg → ∃ mand : List String, cfg.mandatory = mand.map .str)
    (hsame : ∀ r r' : RuleObj, r.info = r'.info → beh r = beh r') :
    runCommand .script objs args (checkWith all regions S beh name mark) print ds = 0 ↔
      ∀ d ∈ ds, ∀ c ∈ checks, InForce objs args d.template { id := c.id } → c.right d.template := by
  rw [C145_exact h hids ht hi hq hdir hmand hsame]
  exact forall₂_congr fun d hd => C147_found h hb htell hobjs hd

end Status

/-! ### fourteen rules -/

namespace Spec

/-- the description is a text or void -/
def DescriptionText (t : Val) : Prop := ∀ v, At t [.str "Description"] v → v.truthy = false ∨ ∃ s, v = .str s

/-- there are no references among the parameters -/
def ParametersPlain (t : Val) : Prop := ∀ q v, ¬ At t (.str "Parameters" :: q ++ [.str "Ref"]) v

/-- no output is an imported value -/
def NoReexport (t : Val) : Prop := ∀ n v, ¬ At t [.str "Outputs", n, .str "Value", .str "Fn::ImportValue"] v

/-- the policies of the resources are good -/
def PoliciesGood (attr : String) (t : Val) : Prop := ∀ k r v, ResourceAt t k r → StatesPolicy r attr v → GoodPolicy r v

/-- no resource but a version of a function or a layer is kept in one case only -/
def KeptAlike (t : Val) : Prop := ∀ k r, ResourceAt t k r → ¬ TypedAs r versions → ¬ HalfKept r

/-- no reference in a condition names a resource -/
def ConditionsFree (t : Val) : Prop := ∀ q w, At t (.str "Conditions" :: q ++ [.str "Ref"]) w → ¬ NamesResource t w

/-- every call of the function is right -/
def EachCall (fn : String) (P : Path → Val → Prop) (t : Val) : Prop := ∀ q v, At t (q ++ [.str fn]) v → P q v

/-- a template that the fourteen rules have nothing to say about -/
structure WellMade (t : Val) : Prop where
  sections : SectionsRight t
  description : DescriptionText t
  parameters : ParametersPlain t
  outputs : NoReexport t
  deletion : PoliciesGood "DeletionPolicy" t
  replacement : PoliciesGood "UpdateReplacePolicy" t
  kept : KeptAlike t
  serverless : UsesServerless t → HasServerless t
  conditions : ConditionsFree t
  imports : EachCall "Fn::ImportValue" (fun q v => (∀ r, q ≠ .str "Conditions" :: r) ∧ ((∃ s, v = .str s) ∨
    OneCall ["Fn::Base64", "Fn::FindInMap", "Fn::If", "Fn::Join", "Fn::Select", "Fn::Split", "Fn::Sub", "Ref"] v)) t
  base64 : EachCall "Fn::Base64" (fun _ v => (∃ s, v = .str s) ∨ ∃ k a, v = .dict [(k, a)] ∧ k ≠ .str "Fn::Split") t
  nots : EachCall "Fn::Not" (fun _ v => ∃ xs, v = .list xs) t
  ifs : EachCall "Fn::If" (fun _ v => ∃ c a b, v = .list [.str c, a, b]) t
  splits : EachCall "Fn::Split" (fun _ v => ∃ s w, v = .list [.str s, w] ∧ SplitSource w) t

end Spec

theorem tells_of_exact {α : Type} {place : α → Path} {msg : α → String} {r : PyM (List α)} {P : α → Prop} (h : ∃ l, r = .ok l ∧ ∀ p, p ∈ l ↔ P p) :
    (withText place msg r = .ok [] ∨ ∃ s, withText place msg r = .error (.templateAttributeError s)) ↔ ∀ p, ¬ P p := by
  obtain ⟨l, rfl, hl⟩ := h
  constructor
  · rintro (h | ⟨s, h⟩) p hp
    · simp only [withText] at h
      injection h with h
      rw [List.map_eq_nil_iff] at h
      subst h
      cases (hl p).2 hp
    · cases h
  · intro hn
    left
    have : l = [] := List.eq_nil_iff_forall_not_mem.2 fun p hp => hn p ((hl p).1 hp)
    subst this
    rfl

theorem tells_of_calls {fn : String} {check : Path → Val → PyM (List Path)} {msg : Path → String} {t : Val} (hw : t.WF) {P : Path → Val → Prop}
    (hn : ∀ p v, NoAttr (check p v)) (hp : ∀ p v, check p v = .ok [] ↔ P p v) :
    (withText id msg (callRule fn check t (.dict [])) = .ok [] ∨ ∃ s, withText id msg (callRule fn check t (.dict [])) = .error (.templateAttributeError s)) ↔
      ∀ q v, At t (q ++ [.str fn]) v → P (q ++ [.str fn]) v := by
  have hmem := (C27_search_partial fn t hw).1
  have hna : NoAttr (callRule fn check t (.dict [])) := noAttr_collectM fun _ _ => hn _ _
  constructor
  · rintro (h | ⟨s, h⟩) q v hat
    · cases hc : callRule fn check t (.dict []) with
      | error e => rw [hc] at h; cases h
      | ok l =>
        rw [hc] at h
        simp only [withText] at h
        injection h with h
        rw [List.map_eq_nil_iff] at h
        subst h
        exact (hp _ _).1 (collectM_silent hc (_, v) ((hmem _ _).2 ⟨hat, q, rfl⟩))
    · cases hc : callRule fn check t (.dict []) with
      | error e =>
        rw [hc] at h
        cases h
        exact absurd hc (hna s)
      | ok l => rw [hc] at h; cases h
  · intro h
    left
    have : callRule fn check t (.dict []) = .ok [] := by
      unfold callRule
      have : ∀ l : List (Path × Val), (∀ x ∈ l, check x.1 x.2 = .ok []) → collectM (fun f => check f.1 f.2) l = .ok [] := by
        intro l
        induction l with
        | nil => intro _; rfl
        | cons x l ih =>
          intro hx
          rw [collectM, hx x List.mem_cons_self, ih fun y hy => hx y (List.mem_cons_of_mem _ hy)]
          rfl
      apply this
      rintro ⟨p, v⟩ hx
      obtain ⟨hat, q, rfl⟩ := (hmem _ _).1 hx
      exact (hp _ _).2 (h q v hat)
    rw [this]
    rfl

theorem ifShape_silent {p : Path} {v : Val} : ifShape p v = .ok [] ↔ ∃ c a b, v = .list [.str c, a, b] := by
  unfold ifShape
  split
  · simp
  · rename_i c xs
    constructor
    · intro h
      injection h with h
      rw [List.append_eq_nil_iff] at h
      obtain ⟨h1, h2⟩ := h
      have h3 : xs.length = 2 := by
        by_contra hx
        rw [if_pos hx] at h1
        cases h1
      have h4 : isText c = true := by
        by_contra hx
        rw [if_neg hx] at h2
        cases h2
      obtain ⟨s, rfl⟩ := isText_iff.1 h4
      match xs, h3 with
      | [a, b], _ => exact ⟨s, a, b, rfl⟩
    · rintro ⟨c', a, b, e⟩
      cases e
      rfl
  · rename_i hne
    constructor
    · intro h; cases h
    · rintro ⟨c, a, b, rfl⟩
      exact absurd rfl (hne _ _)

theorem splitShape_silent {p : Path} {v : Val} : splitShape p v = .ok [] ↔ ∃ s w, v = .list [.str s, w] ∧ SplitSource w := by
  unfold splitShape
  split
  · rename_i a w
    constructor
    · intro h
      injection h with h
      rw [List.append_eq_nil_iff] at h
      obtain ⟨h1, h2⟩ := h
      have h4 : isText a = true := by
        by_contra hx
        rw [if_neg hx] at h1
        cases h1
      obtain ⟨s, rfl⟩ := isText_iff.1 h4
      refine ⟨s, w, rfl, ?_⟩
      unfold splitSource at h2
      split at h2
      · split at h2
        · rename_i hk
          exact .call (oneCall_dict.2 hk)
        · cases h2
      · exact .text
      · cases h2
    · rintro ⟨s, w', e, hs⟩
      cases e
      cases hs with
      | text => rfl
      | call hc =>
        obtain ⟨f, hf, a, rfl⟩ := hc
        have : isKeyIn (.str f) splitFunctions = true := isKeyIn_iff.2 ⟨f, hf, rfl⟩
        simp [splitSource, this, isText]
  · rename_i hne
    constructor
    · intro h; cases h
    · rintro ⟨s, w, rfl, -⟩
      exact absurd rfl (hne _ _)

theorem globals_empty {key : String} {p : Path} {w : Val} : ¬ ((∃ q, p = q ++ [Key.str key]) ∧ At (.dict []) p w) := by
  rintro ⟨⟨q, rfl⟩, h⟩
  cases q with
  | nil => have := at_dict_one.1 h; cases this
  | cons k q =>
    obtain ⟨v, h1, -⟩ := at_cons.1 h
    have := at_dict_one.1 h1
    cases this

theorem policyFault_bad {r v : Val} (h : GoodPolicy r v) (kind : PolicyKind) : ¬ PolicyFault r v kind := by
  intro hf
  cases hf with
  | several => cases h
  | notText h1 _ => cases h <;> exact h1 _ rfl
  | unknown h1 h2 h3 =>
    cases h with
    | delete => exact h1 rfl
    | retain => exact h2 rfl
    | snapshot _ => exact h3 rfl
  | snapshot hn =>
    generalize hv : Val.str "Snapshot" = v at h
    cases h with
    | delete => simp at hv
    | retain => simp at hv
    | snapshot hs => exact hn hs

theorem policies_tell (attr : String) (msg : Path × PolicyKind → String) :
    WholeCheck.Tells ⟨"", fun t => withText Prod.fst msg (policyRule attr t), PoliciesGood attr⟩ := by
  intro top hw
  obtain ⟨l, h1, h2⟩ := C84_kinds (attr := attr) hw ⟨top, rfl⟩
  refine (tells_of_exact (P := fun x => ∃ k r v, x.1 = [.str "Resources", k, .str attr] ∧ ResourceAt (.dict top) k r ∧ StatesPolicy r attr v ∧ PolicyFault r v x.2)
    ⟨l, h1, fun x => h2 x.1 x.2⟩).trans ⟨fun h k r v hr hs => ?_, ?_⟩
  · exact goodPolicy_of fun kind hk => h (_, kind) ⟨k, r, v, rfl, hr, hs, hk⟩
  · rintro h ⟨p, kind⟩ ⟨k, r, v, -, hr, hs, hk⟩
    exact policyFault_bad (h k r v hr hs) kind hk

/-- the fourteen rules: templates/Base.py, templates/Description.py, parameters/DefaultRef.py, outputs/ImportValue.py, DeletionPolicy.py,
UpdateReplacePolicy.py, BothUpdateReplacePolicyDeletionPolicyNeeded.py, ServerlessTransform.py, functions/RefInCondition.py, ImportValue.py, Base64.py,
Not.py, If.py and Split.py; the messages are arbitrary -/
def fourteen (msg : Path → String) : List WholeCheck :=
  [⟨"E1001", fun t => withText id msg (match t with | .dict top => .ok (baseRule top) | _ => .ok []), SectionsRight⟩,
   ⟨"E1004", fun t => withText id msg (descriptionRule t), DescriptionText⟩,
   ⟨"E2014", fun t => withText Prod.fst (fun x => msg x.1) (.ok (defaultRefRule t (.dict []))), ParametersPlain⟩,
   ⟨"W6001", fun t => withText Prod.fst (fun x => msg x.1) (.ok (outputImportRule t (.dict []))), NoReexport⟩,
   ⟨"E3035", fun t => withText Prod.fst (fun x => msg x.1) (policyRule "DeletionPolicy" t), PoliciesGood "DeletionPolicy"⟩,
   ⟨"E3036", fun t => withText Prod.fst (fun x => msg x.1) (policyRule "UpdateReplacePolicy" t), PoliciesGood "UpdateReplacePolicy"⟩,
   ⟨"W3011", fun t => withText id msg (bothRule t), KeptAlike⟩,
   ⟨"E3038", fun t => withText id msg (serverlessRule t), fun t => UsesServerless t → HasServerless t⟩,
   ⟨"E1026", fun t => withText id msg (refInConditionRule t (.dict [])), ConditionsFree⟩,
   ⟨"E1016", fun t => withText id msg (importRule t (.dict [])), EachCall "Fn::ImportValue" (fun q v => (∀ r, q ≠ .str "Conditions" :: r) ∧ ((∃ s, v = .str s) ∨
      OneCall ["Fn::Base64", "Fn::FindInMap", "Fn::If", "Fn::Join", "Fn::Select", "Fn::Split", "Fn::Sub", "Ref"] v))⟩,
   ⟨"E1021", fun t => withText id msg (base64Rule t (.dict [])), EachCall "Fn::Base64" (fun _ v => (∃ s, v = .str s) ∨ ∃ k a, v = .dict [(k, a)] ∧ k ≠ .str "Fn::Split")⟩,
   ⟨"E1023", fun t => withText id msg (notRule t (.dict [])), EachCall "Fn::Not" (fun _ v => ∃ xs, v = .list xs)⟩,
   ⟨"E1028", fun t => withText id msg (ifRule t (.dict [])), EachCall "Fn::If" (fun _ v => ∃ c a b, v = .list [.str c, a, b])⟩,
   ⟨"E1018", fun t => withText id msg (splitRule t (.dict [])), EachCall "Fn::Split" (fun _ v => ∃ s w, v = .list [.str s, w] ∧ SplitSource w)⟩]

/-- **C147** Each of the fourteen rules tells exactly when a template is not right for it. -/
theorem C147_tells (msg : Path → String) : ∀ c ∈ fourteen msg, c.Tells := by
  intro c hc
  simp only [fourteen, List.mem_cons, List.not_mem_nil, or_false] at hc
  rcases hc with rfl | rfl | rfl | rfl | rfl | rfl | rfl | rfl | rfl | rfl | rfl | rfl | rfl | rfl <;> intro top hw
  · refine (tells_of_exact (P := fun p => p ∈ baseRule top) ⟨_, rfl, fun p => Iff.rfl⟩).trans ?_
    rw [← List.eq_nil_iff_forall_not_mem]
    exact baseRule_nil
  · refine (tells_of_exact (C118_description hw)).trans ⟨fun h v hat => ?_, ?_⟩
    · by_contra hc
      push Not at hc
      exact h _ ⟨rfl, v, hat, by simpa using hc.1, hc.2⟩
    · rintro h p ⟨rfl, w, hat, h1, h2⟩
      rcases h w hat with h3 | ⟨s, h3⟩
      · rw [h1] at h3; cases h3
      · exact h2 s h3
  · refine (tells_of_exact ⟨_, rfl, fun x => C116_parameters_partial (.dict top) (.dict []) x.1 x.2⟩).trans ⟨fun h q v hat => ?_, ?_⟩
    · exact h (_, v) ⟨⟨⟨.str "Parameters" :: q, rfl⟩, .inl hat⟩, q ++ [.str "Ref"], rfl⟩
    · rintro h ⟨p, w⟩ ⟨⟨⟨q, hq⟩, hor⟩, q', hq'⟩
      simp only at hq hq' hor
      rcases hor with hat | hat
      · cases q with
        | nil => rw [hq] at hq'; simp at hq'
        | cons k q =>
          rw [hq] at hq'
          injection hq' with e _
          rw [hq, e] at hat
          exact h q w hat
      · exact globals_empty ⟨⟨q, hq⟩, hat⟩
  · refine (tells_of_exact ⟨_, rfl, fun x => C118_imports (.dict top) (.dict []) x.1 x.2⟩).trans ⟨fun h n v hat => ?_, ?_⟩
    · exact h (_, v) ⟨⟨⟨[.str "Outputs", n, .str "Value"], rfl⟩, .inl hat⟩, n, [], rfl⟩
    · rintro h ⟨p, w⟩ ⟨⟨⟨q, hq⟩, hor⟩, n, q', hq'⟩
      simp only at hq hq' hor
      rcases hor with hat | hat
      · rw [hq'] at hat
        obtain ⟨a, h1, hat⟩ := at_cons.1 hat
        obtain ⟨b, h2, hat⟩ := at_cons.1 hat
        obtain ⟨c, h3, hat⟩ := at_cons.1 hat
        obtain ⟨d, h4, -⟩ := at_cons.1 hat
        exact h n d (at_cons.2 ⟨_, h1, at_cons.2 ⟨_, h2, at_cons.2 ⟨_, h3, h4⟩⟩⟩)
      · exact globals_empty ⟨⟨q, hq⟩, hat⟩
  · exact policies_tell _ _ top hw
  · exact policies_tell _ _ top hw
  · refine (tells_of_exact (C84_both hw ⟨top, rfl⟩)).trans ⟨fun h k r hr hv hk => h _ ⟨k, r, rfl, hr, hv, hk⟩, ?_⟩
    rintro h p ⟨k, r, -, hr, hv, hk⟩
    exact h k r hr hv hk
  · refine (tells_of_exact (C115_serverless hw)).trans ⟨fun h hu => ?_, ?_⟩
    · by_contra hc
      exact h _ ⟨rfl, hu, hc⟩
    · rintro h p ⟨-, hu, hn⟩
      exact hn (h hu)
  · refine (tells_of_exact (C116_conditions hw (.dict []))).trans ⟨fun h q w hat hn => ?_, ?_⟩
    · exact h (.str "Conditions" :: q ++ [.str "Ref"]) ⟨q ++ [.str "Ref"], w, rfl, ⟨⟨.str "Conditions" :: q, rfl⟩, .inl hat⟩, hn⟩
    · rintro h p ⟨q', w, hq', ⟨⟨q, hq⟩, hor⟩, hn⟩
      rcases hor with hat | hat
      · cases q with
        | nil => rw [hq] at hq'; simp at hq'
        | cons k q =>
          rw [hq] at hq'
          injection hq' with e _
          rw [hq, e] at hat
          exact h q w hat hn
      · exact globals_empty ⟨⟨q, hq⟩, hat⟩
  · refine (tells_of_exact (C72_import hw)).trans ⟨fun h q v hat => ?_, ?_⟩
    · have hno : ∀ s, ¬ BadImport (q ++ [.str "Fn::ImportValue"]) v s := fun s hs => h _ ⟨q, v, s, hat, hs, rfl⟩
      constructor
      · rintro r rfl
        exact hno [] .place
      · by_contra hc
        push Not at hc
        exact hno [] (.value hc.1 hc.2)
    · rintro h p ⟨q, v, s, hat, hbad, -⟩
      obtain ⟨h1, h2⟩ := h q v hat
      generalize hp : q ++ [Key.str "Fn::ImportValue"] = p' at hbad
      cases hbad with
      | place =>
        cases q with
        | nil => simp at hp
        | cons k q =>
          injection hp with e _
          exact h1 q (by rw [e])
      | value h3 h4 =>
        rcases h2 with ⟨s, h2⟩ | h2
        · exact h3 s h2
        · exact h4 h2
  · refine (tells_of_exact (C72_base64 hw)).trans ⟨fun h q v hat => ?_, ?_⟩
    · by_contra hc
      push Not at hc
      exact h _ ⟨q, v, [], hat, ⟨rfl, hc.1, hc.2⟩, rfl⟩
    · rintro h p ⟨q, v, s, hat, ⟨-, h1, h2⟩, -⟩
      rcases h q v hat with ⟨x, hx⟩ | ⟨k, a, hk, hne⟩
      · exact h1 x hx
      · exact hne (h2 k a hk)
  · refine (tells_of_exact (C72_not hw)).trans ⟨fun h q v hat => ?_, ?_⟩
    · by_contra hc
      push Not at hc
      exact h _ ⟨q, v, [], hat, ⟨rfl, hc⟩, rfl⟩
    · rintro h p ⟨q, v, s, hat, ⟨-, h1⟩, -⟩
      obtain ⟨xs, hx⟩ := h q v hat
      exact h1 xs hx
  · exact tells_of_calls hw (by intro p v s hs; unfold ifShape at hs; split at hs <;> cases hs) (fun p v => ifShape_silent)
  · exact tells_of_calls hw (by intro p v s hs; unfold splitShape at hs; split at hs <;> cases hs) (fun p v => splitShape_silent)

/-- the fourteen rules and nothing else -/
def fourteenBehaviour (msg : Path → String) (r : RuleObj) : Behaviour := { whole := ((fourteen msg).find? (fun c => c.id == r.info.id)).map WholeCheck.rule }

theorem fourteen_behave (msg : Path → String) : BehaveAs (fourteen msg) (fourteenBehaviour msg) := by
  intro r c hc hid
  refine ⟨?_, rfl, rfl⟩
  simp only [fourteenBehaviour, hid]
  simp only [fourteen, List.mem_cons, List.not_mem_nil, or_false] at hc
  rcases hc with rfl | rfl | rfl | rfl | rfl | rfl | rfl | rfl | rfl | rfl | rfl | rfl | rfl | rfl <;> rfl

/-- the ids of the fourteen rules -/
def fourteenIds : List String := ["E1001", "E1004", "E2014", "W6001", "E3035", "E3036", "W3011", "E3038", "E1026", "E1016", "E1021", "E1023", "E1028", "E1018"]

theorem fourteen_ids (msg : Path → String) : (fourteen msg).map WholeCheck.id = fourteenIds := rfl

theorem wellMade_iff (msg : Path → String) (t : Val) : (∀ c ∈ fourteen msg, c.right t) ↔ WellMade t := by
  simp only [fourteen, List.forall_mem_cons]
  constructor
  · rintro ⟨h1, h2, h3, h4, h5, h6, h7, h8, h9, h10, h11, h12, h13, h14, -⟩
    exact ⟨h1, h2, h3, h4, h5, h6, h7, h8, h9, h10, h11, h12, h13, h14⟩
  · rintro ⟨h1, h2, h3, h4, h5, h6, h7, h8, h9, h10, h11, h12, h13, h14⟩
    exact ⟨h1, h2, h3, h4, h5, h6, h7, h8, h9, h10, h11, h12, h13, h14, fun _ h => by cases h⟩

/-- **C147** With the fourteen rules as they stand, and templates that were read and configure nothing, the script ends with status 0 exactly if all
templates are well made. -/
theorem C147_wellMade (S : TypeSpecs) (name : Val → String) (msg : Path → String) {ds : List Decoded} (hd : ∀ d ∈ ds, ReadPlain d) :
    runCommand .script (withIds fourteenIds) (c50Args [] false []) (checkWith [] [] S (fourteenBehaviour msg) name (markAll default)) (fun _ => .ok ()) ds = 0 ↔
      ∀ d ∈ ds, WellMade d.template := by
  have hready := plain_ready (ids := fourteenIds) (beh := fourteenBehaviour msg) (ds := ds) (by decide) (fun r t => rfl) hd
  rw [C147_status hready (fourteen_behave msg) (C147_tells msg)
    (by
      intro r hr
      obtain ⟨i, hi, rfl⟩ := List.mem_map.1 hr
      rw [← fourteen_ids msg] at hi
      obtain ⟨c, hc, rfl⟩ := List.mem_map.1 hi
      exact ⟨c, hc, rfl⟩)
    (by
      intro r hr x hx
      obtain ⟨i, hi, rfl⟩ := List.mem_map.1 hr
      obtain ⟨c, cs, e, hcs⟩ := severity_ids (ids := fourteenIds) (by decide) i hi
      rcases hcs with rfl | rfl
      · exact .inr (.inr ⟨'E', cs, by rw [hx]; exact e, .inl rfl⟩)
      · exact .inr (.inl ⟨'W', cs, by rw [hx]; exact e, .inl rfl⟩))
    (fun d h => by obtain ⟨kv, top, ht⟩ := (hd d h).object; rw [ht]; rfl) (by decide)
    (by
      intro d h a ha
      rw [(hd d h).args] at ha
      cases ha
      intro n _
      rfl)
    (fun d h => (hd d h).directives)
    (fun d h cfg hc => by cases plain_configured (hd d h).args hc; exact ⟨[], rfl⟩)
    (fun r r' e => by unfold fourteenBehaviour; rw [e])]
  refine forall₂_congr fun d h => ?_
  rw [← wellMade_iff msg]
  refine forall₂_congr fun c hc => ⟨fun hr => hr ?_, fun hr _ => hr⟩
  have hi : c.id ∈ fourteenIds := by rw [← fourteen_ids msg]; exact List.mem_map_of_mem hc
  refine rules_inForce hi (hd d h).args ?_
  have : ∀ i ∈ fourteenIds, isRuleEnabled { incl := addDefaults [.str "W", .str "E"] } { id := i } = .ok true := by decide
  exact this _ hi

/-- a template that is well made, and one whose only fault is a policy -/
def madeWith (policy : String) : Val :=
  .dict [(.str "Description", .str "a bucket"), (.str "Resources", .dict [(.str "B", .dict [(.str "Type", .str "AWS::S3::Bucket"),
    (.str "DeletionPolicy", .str policy), (.str "UpdateReplacePolicy", .str "Retain")])])]

theorem madeWith_read {policy : String} (h : policy ∈ ["Retain", "Keep"]) : ReadPlain ⟨madeWith policy, []⟩ := by
  simp only [List.mem_cons, List.not_mem_nil, or_false] at h
  rcases h with rfl | rfl <;>
    exact ⟨rfl, by simp [madeWith, Val.WF, Val.WFDict], ⟨_, _, rfl⟩, by decide +kernel, by decide +kernel⟩

example : WellMade (madeWith "Retain") ∧ ¬ WellMade (madeWith "Keep") := by
  have key : ∀ policy ∈ ["Retain", "Keep"], (WellMade (madeWith policy) ↔ runCommand .script (withIds fourteenIds) (c50Args [] false [])
      (checkWith [] [] ⟨[], []⟩ (fourteenBehaviour fun _ => "m") (fun _ => "t") (markAll default)) (fun _ => .ok ()) [⟨madeWith policy, []⟩] = 0) := by
    intro policy hp
    rw [C147_wellMade ⟨[], []⟩ (fun _ => "t") (fun _ => "m") (ds := [⟨madeWith policy, []⟩]) (fun d h => by cases List.mem_singleton.1 h; exact madeWith_read hp)]
    simp
  exact ⟨(key "Retain" (by simp)).2 (by decide +kernel), fun h => absurd ((key "Keep" (by simp)).1 h) (by decide +kernel)⟩

end CfnLint
