import Verif.Spec.PolicyVersion
import Verif.Lemmas.CheckAll
import Verif.Lemmas.Leaves
import Verif.Lemmas.Finds
import Verif.Lemmas.Config
import Verif.Lemmas.PathConds
import Verif.Props.Template
/-
C111: the versions of policies.
-/
namespace CfnLint
open Spec

theorem leaf_plain {kvs : List (Key × Val)} (h : ∀ w, (Key.str "Fn::If", w) ∉ kvs) {q : Path} {u : Val} :
    Leaf (.dict kvs) q u ↔ q = [] ∧ u = .dict kvs ∧ Val.dict kvs ≠ noValue := by
  constructor
  · intro hl
    generalize hv : Val.dict kvs = v at hl
    cases hl with
    | here _ h2 => exact ⟨rfl, hv ▸ rfl, h2⟩
    | left =>
      injection hv with hv
      subst hv
      exact absurd (List.mem_singleton_self _) (h _)
    | right =>
      injection hv with hv
      subst hv
      exact absurd (List.mem_singleton_self _) (h _)
  · rintro ⟨rfl, rfl, h2⟩
    refine .here ?_ h2
    rintro ⟨w, e⟩
    injection e with e
    subst e
    exact absurd (List.mem_singleton_self _) (h w)

theorem wf_filter {kvs : List (Key × Val)} {f : Key × Val → Bool} (h : (Val.dict kvs).WF) : (Val.dict (kvs.filter f)).WF := by
  simp only [Val.WF] at h ⊢
  refine ⟨(List.filter_sublist.map Prod.fst).nodup h.1, ?_⟩
  have h2 := h.2
  clear h
  induction kvs with
  | nil => trivial
  | cons kv rest ih =>
    simp only [Val.WFDict] at h2
    rw [List.filter_cons]
    split
    · exact ⟨h2.1, ih h2.2⟩
    · exact ih h2.2

/-- what is found in a document -/
theorem versionDocument_spec {doc : List (Key × Val)} (hw : (Val.dict doc).WF) (hk : Known (.dict doc)) (hif : ∀ w, (Key.str "Fn::If", w) ∉ doc) (p : Path) :
    ∃ l, versionDocument (.dict doc) p = .ok l ∧ ∀ m, m ∈ l ↔ (Key.str "Version", Val.str "2008-10-17") ∈ doc ∧ m = p ++ [.str "Version"] := by
  have hnv : Val.dict doc ≠ noValue := fun e => hk "Ref" (.str "AWS::NoValue") e (by decide)
  have hif' : ∀ w, (Key.str "Fn::If", w) ∉ doc.filter (fun kv => decide (kv.2 ≠ noValue)) := fun w h => hif w (List.mem_filter.1 h).1
  have hw' : (Val.dict (doc.filter (fun kv => decide (kv.2 ≠ noValue)))).WF := wf_filter hw
  have hold : Val.str "2008-10-17" ≠ noValue := by decide
  obtain ⟨l, h1, h2⟩ := collectM_spec (as := itemsSafe [] doc p) (f := fun ep : Val × Path =>
      match itemsSafeOf ep.1 ep.2 with
      | .error e => .error e
      | .ok l => collectM (fun xp : Val × Path => versionAt xp.1 xp.2) l)
    (P := fun _ m => (Key.str "Version", Val.str "2008-10-17") ∈ doc ∧ m = p ++ [.str "Version"]) (by
      rintro ⟨e, ep⟩ he
      obtain ⟨q, u, hl, rfl, rfl, -⟩ := (mem_itemsSafe [] doc p ep e hw).1 he
      obtain ⟨rfl, rfl, -⟩ := (leaf_plain hif).1 hl
      simp only [withoutNoValue, itemsSafeOf, List.append_nil]
      obtain ⟨l, h1, h2⟩ := collectM_spec (as := itemsSafe [] (doc.filter (fun kv => decide (kv.2 ≠ noValue))) p)
        (f := fun xp : Val × Path => versionAt xp.1 xp.2) (P := fun _ m => (Key.str "Version", Val.str "2008-10-17") ∈ doc ∧ m = p ++ [.str "Version"]) (by
          rintro ⟨x, xp⟩ hx
          obtain ⟨q, u, hl, rfl, rfl, -⟩ := (mem_itemsSafe [] _ p xp x hw').1 hx
          obtain ⟨rfl, rfl, -⟩ := (leaf_plain hif').1 hl
          refine ⟨_, by simp only [versionAt, withoutNoValue, Val.getD]; rfl, fun m => ?_⟩
          have hmem : (Key.str "Version", Val.str "2008-10-17") ∈ doc ↔
              ((dlookup (Key.str "Version") ((doc.filter (fun kv => decide (kv.2 ≠ noValue))).filter (fun kv => decide (kv.2 ≠ noValue)))).getD .none ==
                .str "2008-10-17") = true := by
            rw [beq_iff_eq]
            have hw2 := wf_filter (f := fun kv => decide (kv.2 ≠ noValue)) hw'
            simp only [Val.WF] at hw2
            constructor
            · intro h
              rw [dlookup_of_mem hw2.1 (List.mem_filter.2 ⟨List.mem_filter.2 ⟨h, by simpa using hold⟩, by simpa using hold⟩)]
              rfl
            · intro h
              cases hl : dlookup (Key.str "Version") ((doc.filter (fun kv => decide (kv.2 ≠ noValue))).filter (fun kv => decide (kv.2 ≠ noValue))) with
              | none =>
                rw [hl] at h
                cases h
              | some v =>
                rw [hl] at h
                cases h
                exact (List.mem_filter.1 (List.mem_filter.1 (dlookup_mem hl)).1).1
          rw [hmem]
          split
          · rename_i h
            simp only [List.mem_singleton]
            exact ⟨fun e => ⟨h, by simpa using e⟩, fun e => by simpa using e.2⟩
          · rename_i h
            simp only [List.not_mem_nil, false_iff, not_and]
            exact fun h' => absurd h' h)
      refine ⟨l, h1, fun m => ?_⟩
      rw [h2]
      constructor
      · rintro ⟨_, _, h⟩
        exact h
      · intro h
        refine ⟨_, (mem_itemsSafe [] _ p p _ hw').2 ⟨[], _, (leaf_plain hif').2 ⟨rfl, rfl, ?_⟩, by simp, rfl, by simp [okType]⟩, h⟩
        intro e
        injection e with e
        have := List.mem_filter (p := fun kv : Key × Val => decide (kv.2 ≠ noValue)).2 ⟨h.1, by simpa using hold⟩
        rw [e] at this
        simp at this)
  refine ⟨l, h1, fun m => ?_⟩
  rw [h2]
  constructor
  · rintro ⟨_, _, h⟩
    exact h
  · exact fun h => ⟨_, (mem_itemsSafe [] _ p p _ hw).2 ⟨[], _, (leaf_plain hif).2 ⟨rfl, rfl, hnv⟩, by simp, rfl, by simp [okType]⟩, h⟩

/-- what is found in an object with the documents under a key -/
theorem versionCheck_finds {kvs : List (Key × Val)} {key : String} (h : PlainDocuments kvs key) (n : Nat) (path : Path) :
    Finds (checkValue (n + 2) { value := some versionDocument } (.dict kvs) key path) path (OldVersionIn kvs key) := by
  obtain ⟨hw, hnull, hif⟩ := h
  have hw1 := hw
  simp only [Val.WF] at hw1
  obtain ⟨res, h1, h2⟩ := checkValue_given (h := { value := some versionDocument }) (P := fun u p m => OldDocument u ∧ m = p ++ [.str "Version"])
    (path := path) hw1.1 hnull n (fun v q u hm hq p => by
      obtain ⟨l, h1, h2⟩ := checkOne_valueOnly (f := versionDocument) (u := u) (p := p) (P := fun m => OldDocument u ∧ m = p ++ [.str "Version"]) (fun hk => by
        by_cases hdict : ∃ doc, u = .dict doc
        · obtain ⟨doc, rfl⟩ := hdict
          have hwd : (Val.dict doc).WF := at_wf (propValue_at hq).1 (wfDict_mem hw1.2 _ hm)
          obtain ⟨l, h1, h2⟩ := versionDocument_spec hwd hk (fun w => hif v q doc w hm hq hk) p
          refine ⟨l, h1, fun m => ?_⟩
          rw [h2]
          constructor
          · exact fun h => ⟨⟨hk, doc, rfl, h.1⟩, h.2⟩
          · rintro ⟨⟨-, doc', e, h⟩, h'⟩
            cases e
            exact ⟨h, h'⟩
        · refine ⟨[], ?_, fun m => ⟨fun hm => (by cases hm), ?_⟩⟩
          · unfold versionDocument
            split
            · exact absurd ⟨_, rfl⟩ hdict
            · rfl
          · rintro ⟨⟨-, doc', e, h⟩, h'⟩
            exact absurd ⟨_, e⟩ hdict)
      refine ⟨l, h1, fun m => ?_⟩
      rw [h2]
      exact ⟨fun h => h.2, fun h => ⟨h.1.1, h⟩⟩)
  refine ⟨res, h1, fun m => ?_⟩
  rw [h2]
  constructor
  · rintro ⟨v, q, u, h3, h4, h5, rfl⟩
    exact ⟨_, by simp, v, q, u, h3, h4, h5, rfl⟩
  · rintro ⟨_, rfl, v, q, u, h3, h4, h5, rfl⟩
    exact ⟨v, q, u, h3, h4, h5, by simp⟩

theorem versionKeys_document {t key : String} (h : DocumentOf t key) : dlookup t versionKeys = some key ∧ key ≠ "Policies" := by
  cases h with
  | ecr => decide
  | search => decide
  | key => decide
  | plain h =>
    have : ∀ t ∈ ["AWS::S3::BucketPolicy", "AWS::SNS::TopicPolicy", "AWS::SQS::QueuePolicy", "AWS::IAM::ManagedPolicy", "AWS::IAM::Policy"],
      dlookup t versionKeys = some "PolicyDocument" ∧ "PolicyDocument" ≠ "Policies" := by decide +kernel
    exact this t h

/-- C111: where the policy is one document, W2511 finds exactly the versions that are old, of all documents that conditions can choose. -/
theorem C111_document {t key : String} (ht : DocumentOf t key) {kvs : List (Key × Val)} (h : PlainDocuments kvs key) (n : Nat) (path : Path) :
    Finds (versionRule (n + 2) t kvs path) path (OldVersionIn kvs key) := by
  obtain ⟨h1, h2⟩ := versionKeys_document ht
  unfold versionRule
  rw [h1]
  simp only [if_neg h2]
  exact versionCheck_finds h n path

/-- C111: where the policies are a list, W2511 finds exactly the old versions in the documents of the policies that are objects. -/
theorem C111_policies_partial {t : String} (ht : HasPolicies t) {kvs : List (Key × Val)} (hd : (kvs.map Prod.fst).Nodup) {xs : List Val}
    (hx : (Key.str "Policies", .list xs) ∈ kvs) (h : ∀ pol, .dict pol ∈ xs → PlainDocuments pol "PolicyDocument") (n : Nat) (path : Path) :
    Finds (versionRule (n + 2) t kvs path) path
      (fun s => ∃ (i : Nat) (pol : List (Key × Val)) (r : Path), xs[i]? = some (.dict pol) ∧ OldVersionIn pol "PolicyDocument" r ∧ s = .str "Policies" :: .int i :: r) := by
  have h1 : dlookup t versionKeys = some "Policies" := by
    have : ∀ t ∈ ["AWS::IAM::Group", "AWS::IAM::Role", "AWS::IAM::User"], dlookup t versionKeys = some "Policies" := by decide +kernel
    exact this t ht
  unfold versionRule
  rw [h1]
  simp only [↓reduceIte, dlookup_of_mem hd hx, Option.getD_some, iterOf]
  have hf := finds_items (rec := fun x p => checkValue (n + 2) { value := some versionDocument } x "PolicyDocument" p) (xs := xs) (p := path ++ [.str "Policies"])
    (G := fun x s => ∃ pol, x = .dict pol ∧ OldVersionIn pol "PolicyDocument" s) (fun i x hi => by
      by_cases hdict : ∃ pol, x = .dict pol
      · obtain ⟨pol, rfl⟩ := hdict
        refine finds_congr (versionCheck_finds (h pol (List.mem_of_getElem? hi)) n _) (fun r => ?_)
        constructor
        · exact fun h => ⟨pol, rfl, h⟩
        · rintro ⟨pol', e, h⟩
          cases e
          exact h
      · have : checkValue (n + 2) { value := some versionDocument } x "PolicyDocument" (path ++ [.str "Policies"] ++ [.int i]) = .ok [] := by
          unfold checkValue
          split
          · exact absurd ⟨_, rfl⟩ hdict
          · rfl
        rw [this]
        refine finds_none (fun r => ?_)
        rintro ⟨pol', e, h⟩
        exact hdict ⟨_, e⟩)
  have hs := finds_shift hf
  simp only [List.append_assoc, List.cons_append, List.nil_append] at hs
  refine finds_congr hs (fun r => ?_)
  constructor
  · rintro ⟨_, rfl, i, x, s, h2, ⟨pol, rfl, h3⟩, rfl⟩
    exact ⟨i, pol, s, h2, h3, rfl⟩
  · rintro ⟨i, pol, s, h2, h3, rfl⟩
    exact ⟨_, rfl, i, _, s, h2, ⟨pol, rfl, h3⟩, rfl⟩

/-- what is asked of lists of policies: every document that conditions can choose, of every policy that they can choose, is looked at -/
def C111_statement : Prop :=
  ∀ (t : String) (kvs : List (Key × Val)) (n : Nat) (path : Path), HasPolicies t → (Val.dict kvs).WF →
    ∀ v q pol r, (Key.str "Policies", v) ∈ kvs → PropValue v q (.dict pol) → OldVersionIn pol "PolicyDocument" r →
      ∃ res, versionRule (n + 2) t kvs path = .ok res ∧ path ++ .str "Policies" :: (q ++ r) ∈ res

/-- a role with one policy, or none -/
def exPolicies : List (Key × Val) :=
  [(.str "Policies", .dict [(.str "Fn::If", .list [.str "C", .list [.dict [(.str "PolicyDocument", .dict [(.str "Version", .str "2008-10-17")])]], noValue])])]

/-- C111: policies under a condition are not looked at. -/
theorem C111_violated : ¬ C111_statement := by
  intro h
  have hleaf : ∀ {w}, ¬ IsIf w → w ≠ noValue → Leaf w [] w := fun h1 h2 => .here h1 h2
  obtain ⟨res, h1, h2⟩ := h "AWS::IAM::Role" exPolicies 0 [] (by unfold HasPolicies; decide) (by simp [exPolicies, noValue, Val.WF, Val.WFDict, Val.WFList]) _ 
    [.str "Fn::If", .int 1, .int 0] [(.str "PolicyDocument", .dict [(.str "Version", .str "2008-10-17")])] [.str "PolicyDocument", .str "Version"] (.head _)
    ⟨[.str "Fn::If", .int 1], _, .left (hleaf (fun ⟨_, e⟩ => by cases e) (fun e => by cases e)), .inr ⟨_, 0, _, [], rfl, rfl,
      hleaf (fun ⟨_, e⟩ => by simp at e) (fun e => by simp [noValue] at e), rfl⟩⟩
    ⟨_, [], _, .head _, ⟨[], _, hleaf (fun ⟨_, e⟩ => by simp at e) (fun e => by simp [noValue] at e), .inl ⟨fun _ e => (by cases e), rfl, rfl⟩⟩,
      ⟨fun f a e hf => by
        simp at e
        obtain ⟨rfl, -⟩ := e
        revert hf
        decide, _, rfl, .head _⟩, rfl⟩
  have h3 : versionRule (0 + 2) "AWS::IAM::Role" exPolicies [] = .ok [] := by decide +kernel
  rw [h3] at h1
  cases h1
  cases h2

/-- C111: policies that are null make the rule raise. -/
theorem C111_null_raises {t : String} (ht : HasPolicies t) {kvs : List (Key × Val)} (h : dlookup (Key.str "Policies") kvs = some .none) (n : Nat) (path : Path) :
    ∃ e, versionRule n t kvs path = .error e := by
  have h1 : dlookup t versionKeys = some "Policies" := by
    have : ∀ t ∈ ["AWS::IAM::Group", "AWS::IAM::Role", "AWS::IAM::User"], dlookup t versionKeys = some "Policies" := by decide +kernel
    exact this t ht
  unfold versionRule
  rw [h1]
  simp only [↓reduceIte, h, Option.getD_some, iterOf]
  exact ⟨_, rfl⟩

/-- C111: other types pass. -/
theorem C111_other_types {t : String} (h1 : ∀ key, ¬ DocumentOf t key) (h2 : ¬ HasPolicies t) (n : Nat) (kvs : List (Key × Val)) (path : Path) :
    versionRule n t kvs path = .ok [] := by
  unfold versionRule
  cases hl : dlookup t versionKeys with
  | none => rfl
  | some key =>
    have h := dlookup_mem hl
    simp only [versionKeys, List.mem_cons, Prod.mk.injEq, List.not_mem_nil, or_false] at h
    exfalso
    rcases h with ⟨rfl, rfl⟩ | ⟨rfl, rfl⟩ | ⟨rfl, rfl⟩ | ⟨rfl, rfl⟩ | ⟨rfl, rfl⟩ | ⟨rfl, rfl⟩ | ⟨rfl, rfl⟩ | ⟨rfl, rfl⟩ | ⟨rfl, rfl⟩ | ⟨rfl, rfl⟩ | ⟨rfl, rfl⟩
    · exact h1 _ .ecr
    · exact h1 _ .search
    · exact h1 _ .key
    all_goals first
      | exact h2 (by unfold HasPolicies; decide)
      | exact h1 _ (.plain (by decide))

/-- the hypotheses can be met -/
theorem exDocument_plain : PlainDocuments [(.str "KeyPolicy", .dict [(.str "Version", .str "2008-10-17")])] "KeyPolicy" := by
  have key : ∀ {v}, (Key.str "KeyPolicy", v) ∈ [(Key.str "KeyPolicy", Val.dict [(Key.str "Version", Val.str "2008-10-17")])] →
      v = .dict [(.str "Version", .str "2008-10-17")] := by
    intro v h
    simpa using h
  refine ⟨by simp [Val.WF, Val.WFDict], ?_, ?_⟩
  · intro v h
    cases key h
    refine ⟨by simp, fun q hl => ?_⟩
    have := (leaf_plain (by simp)).1 hl
    cases this.2.1
  · intro v q doc w h hq hk hm
    cases key h
    obtain ⟨q', u, h1, ⟨-, rfl, rfl⟩ | ⟨xs, i, x, r, rfl, -⟩⟩ := hq
    · have := (leaf_plain (by simp)).1 h1
      injection this.2.1 with e
      subst e
      simp at hm
    · have := (leaf_plain (by simp)).1 h1
      cases this.2.1

example : Finds (versionRule 2 "AWS::KMS::Key" [(.str "KeyPolicy", .dict [(.str "Version", .str "2008-10-17")])] []) []
    (OldVersionIn [(.str "KeyPolicy", .dict [(.str "Version", .str "2008-10-17")])] "KeyPolicy") := C111_document .key exDocument_plain 0 []

example : versionRule 2 "AWS::KMS::Key" [(.str "KeyPolicy", .dict [(.str "Version", .str "2008-10-17")])] [] = .ok [[.str "KeyPolicy", .str "Version"]] := by
  decide +kernel

end CfnLint
