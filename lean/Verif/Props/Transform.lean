import Verif.Model.Transform
import Verif.Spec.Transform
import Verif.Lemmas.Specs
import Verif.Lemmas.CondRules
/-
C41: local code references are replaced.
-/
namespace CfnLint
open Spec

theorem s3_prefix_iff {s p : String} : startsWith s p = true ↔ p.toList <+: s.toList := by
  simp [startsWith]

theorem isS3Uri_str {s : String} : isS3Uri (.str s) = true ↔ IsS3 s := by
  rw [isS3Uri, s3_prefix_iff]; rfl

theorem placeholder_s3 : isS3Uri placeholder = true := by decide

/-- what happens to one property -/
theorem updateToS3_spec {key : String} {props p : Val} (h : updateToS3 key props = .ok p) :
    ∃ kvs, props = .dict kvs ∧ (p = .dict kvs ∨ p = .dict (dset (.str key) placeholder kvs)) ∧
      (∀ s, dlookup (Key.str key) kvs = some (.str s) → IsS3 s → p = .dict kvs) ∧
      (∀ s, dlookup (Key.str key) kvs = some (.str s) → ¬ IsS3 s → p = .dict (dset (.str key) placeholder kvs)) := by
  cases props with
  | dict kvs =>
    refine ⟨kvs, rfl, ?_⟩
    unfold updateToS3 at h
    dsimp only at h
    split at h
    · rename_i k v hu
      have hno : ∀ s, dlookup (Key.str key) kvs ≠ some (.str s) := by
        intro s hs; rw [hs] at hu; cases hu
      split at h
      · cases h; exact ⟨Or.inr rfl, fun s hs => absurd hs (hno s), fun s hs => absurd hs (hno s)⟩
      · cases h; exact ⟨Or.inl rfl, fun s hs => absurd hs (hno s), fun s hs => absurd hs (hno s)⟩
    · rename_i d _ hu
      have hno : ∀ s, dlookup (Key.str key) kvs ≠ some (.str s) := by
        intro s hs; rw [hs] at hu; simp at hu
      cases h
      exact ⟨Or.inl rfl, fun s hs => absurd hs (hno s), fun s hs => absurd hs (hno s)⟩
    · split at h
      · rename_i hs3
        cases h
        refine ⟨Or.inl rfl, fun _ _ _ => rfl, ?_⟩
        intro s hs hn
        rw [hs, Option.getD_some, isS3Uri_str] at hs3
        exact absurd hs3 hn
      · rename_i hs3
        cases h
        refine ⟨Or.inr rfl, ?_, fun _ _ _ => rfl⟩
        intro s hs hn
        rw [hs, Option.getD_some, isS3Uri_str] at hs3
        exact absurd hn hs3
  | none => cases h
  | bool => cases h
  | int => cases h
  | flt => cases h
  | str => cases h
  | list => cases h

/-- the second time nothing happens -/
theorem updateToS3_again {key : String} {props p : Val} (h : updateToS3 key props = .ok p) : updateToS3 key p = .ok p := by
  obtain ⟨kvs, rfl, hp | hp, _⟩ := updateToS3_spec h
  · subst hp; exact h
  · subst hp
    simp only [updateToS3, dlookup_dset, if_true, Option.getD_some]
    simp [placeholder, isS3Uri, startsWith]

theorem updateIfSet_spec {key : String} {props p : Val} (h : updateIfSet key props = .ok p) :
    ∃ kvs, props = .dict kvs ∧ (p = .dict kvs ∨ p = .dict (dset (.str key) placeholder kvs)) ∧
      (∀ s, dlookup (Key.str key) kvs = some (.str s) → IsS3 s → p = .dict kvs) ∧
      (∀ s, dlookup (Key.str key) kvs = some (.str s) → IsLocal s → p = .dict (dset (.str key) placeholder kvs)) := by
  unfold updateIfSet at h
  cases props with
  | dict kvs =>
    simp only [Val.getD] at h
    split at h
    · obtain ⟨kvs', hk, h1, h2, h3⟩ := updateToS3_spec h
      cases hk
      exact ⟨kvs, rfl, h1, h2, fun s hs hl => h3 s hs hl.2⟩
    · rename_i hf
      cases h
      refine ⟨kvs, rfl, Or.inl rfl, fun _ _ _ => rfl, ?_⟩
      intro s hs hl
      rw [hs, Option.getD_some] at hf
      exact absurd (by simp [Val.truthy, hl.1]) hf
  | none => cases h
  | bool => cases h
  | int => cases h
  | flt => cases h
  | str => cases h
  | list => cases h

theorem updateIfSet_again {key : String} {props p : Val} (h : updateIfSet key props = .ok p) : updateIfSet key p = .ok p := by
  unfold updateIfSet at h ⊢
  cases props with
  | dict kvs =>
    simp only [Val.getD] at h
    split at h
    · rename_i ht
      obtain ⟨kvs', hk, hp | hp, _⟩ := updateToS3_spec h
      · cases hk; subst hp; simp only [Val.getD, ht, if_true, h]
      · cases hk
        have := updateToS3_again h
        subst hp
        simp only [Val.getD]
        split
        · exact this
        · rfl
    · rename_i hf
      cases h
      simp only [Val.getD, hf]
      rfl
  | none => cases h
  | bool => cases h
  | int => cases h
  | flt => cases h
  | str => cases h
  | list => cases h

theorem updateLocation_spec {props p : Val} (h : updateLocation props = .ok p) :
    ∃ kvs, props = .dict kvs ∧ (p = .dict kvs ∨ p = .dict (dset (.str "Location") placeholder kvs)) ∧
      (∀ s, dlookup (Key.str "Location") kvs = some (.str s) → s ≠ "" →
        p = .dict (dset (.str "Location") placeholder kvs)) := by
  unfold updateLocation at h
  cases props with
  | dict kvs =>
    refine ⟨kvs, rfl, ?_⟩
    simp only [Val.getD] at h
    split at h
    · have hp : p = .dict (dset (.str "Location") placeholder kvs) := by
        simp only [updateToS3, dlookup_dset, if_true, Option.getD_some] at h
        rw [if_neg (by decide)] at h
        cases h
        rw [dset_dset]
      exact ⟨Or.inr hp, fun _ _ _ => hp⟩
    · rename_i hf
      cases h
      refine ⟨Or.inl rfl, ?_⟩
      intro s hs hl
      rw [hs, Option.getD_some] at hf
      exact absurd (by simp [Val.truthy, hl]) hf
  | none => cases h
  | bool => cases h
  | int => cases h
  | flt => cases h
  | str => cases h
  | list => cases h

theorem updateLocation_again {props p : Val} (h : updateLocation props = .ok p) : updateLocation p = .ok p := by
  obtain ⟨kvs, rfl, hp | hp, _⟩ := updateLocation_spec h
  · subst hp; exact h
  · subst hp
    simp only [updateLocation, Val.getD, dlookup_dset, if_true, Option.getD_some]
    rw [if_pos (by decide), dset_dset]
    simp only [updateToS3, dlookup_dset, if_true, Option.getD_some]
    rw [if_neg (by decide), dset_dset]

/-- an interface without a body, authorisation or cross origin settings in its properties -/
def BareApi (kvs : List (Key × Val)) : Prop :=
  dhas (Key.str "DefinitionBody") kvs = false ∧ dhas (Key.str "Auth") kvs = false ∧ dhas (Key.str "Cors") kvs = false

theorem updateApi_dict {kvs : List (Key × Val)} : updateApi (.dict kvs) =
    if !dhas (Key.str "DefinitionBody") kvs && !dhas (Key.str "Auth") kvs && !dhas (Key.str "Cors") kvs
    then updateToS3 "DefinitionUri" (.dict kvs) else .ok (.dict (dset (.str "DefinitionBody") (.str "") kvs)) := by
  simp only [updateApi, pyIn]

theorem updateApi_kind {props p : Val} (h : updateApi props = .ok p) : ∃ kvs, props = .dict kvs := by
  cases props with
  | dict kvs => exact ⟨kvs, rfl⟩
  | none => cases h
  | bool => cases h
  | int => cases h
  | flt => cases h
  | str s =>
    exfalso
    simp only [updateApi, pyIn] at h
    split at h
    · simp only [updateToS3] at h; cases h
    · cases h
  | list xs =>
    exfalso
    simp only [updateApi, pyIn] at h
    split at h
    · simp only [updateToS3] at h; cases h
    · cases h

theorem updateApi_spec {props p : Val} (h : updateApi props = .ok p) : ∃ kvs, props = .dict kvs ∧
    ((BareApi kvs ∧ updateToS3 "DefinitionUri" (.dict kvs) = .ok p) ∨
      (¬ BareApi kvs ∧ p = .dict (dset (.str "DefinitionBody") (.str "") kvs))) := by
  obtain ⟨kvs, rfl⟩ := updateApi_kind h
  refine ⟨kvs, rfl, ?_⟩
  rw [updateApi_dict] at h
  split at h
  · rename_i hc
    simp only [Bool.and_eq_true, Bool.not_eq_true'] at hc
    exact Or.inl ⟨⟨hc.1.1, hc.1.2, hc.2⟩, h⟩
  · rename_i hc
    cases h
    refine Or.inr ⟨?_, rfl⟩
    rintro ⟨h1, h2, h3⟩
    simp [h1, h2, h3] at hc

theorem dhas_dset {k k' : Key} {v : Val} {d : List (Key × Val)} : dhas k' (dset k v d) = (decide (k = k') || dhas k' d) := by
  rw [dhas, dhas, dlookup_dset]
  by_cases h : k = k' <;> simp [h]

theorem updateApi_again {props p : Val} (h : updateApi props = .ok p) : updateApi p = .ok p := by
  obtain ⟨kvs, rfl, ⟨hb, hu⟩ | ⟨_, rfl⟩⟩ := updateApi_spec h
  · obtain ⟨kvs', hk, hp | hp, _⟩ := updateToS3_spec hu
    · cases hk; subst hp; exact h
    · cases hk
      have := updateToS3_again hu
      subst hp
      rw [updateApi_dict]
      simp [dhas_dset, hb.1, hb.2.1, hb.2.2, this]
  · rw [updateApi_dict]
    simp [dhas_dset, dset_dset]

/-- the properties a run may change -/
def Touches (ty : Val) (k : Key) : Prop :=
  (∃ s key, ty = .str s ∧ (s, key) ∈ codeProperty ∧ k = .str key) ∨
    (ty = .str "AWS::Serverless::Api" ∧ k = .str "DefinitionBody")

theorem updateProps_spec {ty props p : Val} (h : updateProps ty props = .ok p) :
    p = props ∨ ∃ kvs k v, props = .dict kvs ∧ p = .dict (dset k v kvs) ∧ Touches ty k := by
  unfold updateProps at h
  split at h
  · rename_i hty
    obtain ⟨kvs, rfl, hp | hp, _⟩ := updateToS3_spec h
    · exact Or.inl hp
    · exact Or.inr ⟨kvs, _, _, rfl, hp, Or.inl ⟨_, "CodeUri", hty, by decide, rfl⟩⟩
  split at h
  · rename_i hty
    obtain ⟨kvs, rfl, hp | hp, _⟩ := updateIfSet_spec h
    · exact Or.inl hp
    · exact Or.inr ⟨kvs, _, _, rfl, hp, Or.inl ⟨_, "ContentUri", hty, by decide, rfl⟩⟩
  split at h
  · rename_i hty
    obtain ⟨kvs, rfl, hp | hp, _⟩ := updateLocation_spec h
    · exact Or.inl hp
    · exact Or.inr ⟨kvs, _, _, rfl, hp, Or.inl ⟨_, "Location", hty, by decide, rfl⟩⟩
  split at h
  · rename_i hty
    obtain ⟨kvs, rfl, ⟨_, hu⟩ | ⟨_, rfl⟩⟩ := updateApi_spec h
    · obtain ⟨kvs', hk, hp | hp, _⟩ := updateToS3_spec hu
      · cases hk; exact Or.inl hp
      · cases hk
        exact Or.inr ⟨kvs, _, _, rfl, hp, Or.inl ⟨_, "DefinitionUri", hty, by decide, rfl⟩⟩
    · exact Or.inr ⟨kvs, _, _, rfl, rfl, Or.inr ⟨hty, rfl⟩⟩
  split at h
  · rename_i hty
    obtain ⟨kvs, rfl, hp | hp, _⟩ := updateIfSet_spec h
    · exact Or.inl hp
    · exact Or.inr ⟨kvs, _, _, rfl, hp, Or.inl ⟨_, "DefinitionUri", hty, by decide, rfl⟩⟩
  · cases h; exact Or.inl rfl

theorem updateProps_again {ty props p : Val} (h : updateProps ty props = .ok p) : updateProps ty p = .ok p := by
  unfold updateProps at h ⊢
  split at h
  · rename_i hty; rw [if_pos hty]; exact updateToS3_again h
  rename_i h1; rw [if_neg h1]
  split at h
  · rename_i hty; rw [if_pos hty]; exact updateIfSet_again h
  rename_i h2; rw [if_neg h2]
  split at h
  · rename_i hty; rw [if_pos hty]; exact updateLocation_again h
  rename_i h3; rw [if_neg h3]
  split at h
  · rename_i hty; rw [if_pos hty]; exact updateApi_again h
  rename_i h4; rw [if_neg h4]
  split at h
  · rename_i hty; rw [if_pos hty]; exact updateIfSet_again h
  · rename_i h5; rw [if_neg h5]

/-- type and properties of a resource, `None` when missing -/
def typeOf (r : List (Key × Val)) : Val := (dlookup (Key.str "Type") r).getD .none
def propsOf (r : List (Key × Val)) : Val := (dlookup (Key.str "Properties") r).getD .none

/-- a changed resource differs in its properties only -/
theorem replaceResource_spec {t rv r' : Val} {ps : List Val} (h : replaceResource t rv = .ok (r', ps)) :
    ∃ r p, rv = .dict r ∧ updateProps (typeOf r) (propsOf r) = .ok p ∧
      r' = .dict (if p = propsOf r then r else dset (.str "Properties") p r) := by
  unfold replaceResource at h
  split at h
  · rename_i r
    dsimp only at h
    split at h
    · cases h
    · rename_i p hp
      refine ⟨r, p, rfl, hp, ?_⟩
      split at h
      · split at h
        · cases h
        · split at h
          · cases h
          · cases h; rfl
      · cases h; rfl
  · cases h

theorem changed_props (r : List (Key × Val)) (p : Val) :
    propsOf (if p = propsOf r then r else dset (.str "Properties") p r) = p ∧
    typeOf (if p = propsOf r then r else dset (.str "Properties") p r) = typeOf r := by
  split
  · rename_i h; exact ⟨h.symm, rfl⟩
  · constructor
    · simp [propsOf, dlookup_dset]
    · simp [typeOf, dlookup_dset]

/-- `aliasParam` reads the parameters only -/
theorem aliasParam_congr {t t' a : Val} (h : t.getD "Parameters" .none = t'.getD "Parameters" .none) :
    aliasParam t a = aliasParam t' a := by
  unfold aliasParam
  split
  · unfold inParameters; rw [h]
  · rfl

theorem replaceResource_again {t t' rv r' : Val} {ps : List Val} (h : replaceResource t rv = .ok (r', ps))
    (ht : t.getD "Parameters" .none = t'.getD "Parameters" .none) : replaceResource t' r' = .ok (r', ps) := by
  obtain ⟨r, p, rfl, hp, rfl⟩ := replaceResource_spec h
  have hagain := updateProps_again hp
  obtain ⟨h1, h2⟩ := changed_props r p
  unfold replaceResource at h ⊢
  dsimp only at h ⊢
  change (match updateProps (typeOf r) (propsOf r) with | .error e => _ | .ok p => _) = _ at h
  rw [hp] at h
  dsimp only at h
  change (match updateProps (typeOf _) (propsOf _) with | .error e => _ | .ok p => _) = _
  rw [h1, h2, hagain]
  dsimp only
  change (if typeOf r = .str "AWS::Serverless::Function" then _ else _) = _ at h
  change (if typeOf _ = .str "AWS::Serverless::Function" then _ else _) = _
  rw [h2]
  have hsame : (if p = (dlookup (Key.str "Properties") (if p = propsOf r then r else dset (.str "Properties") p r)).getD .none
      then (if p = propsOf r then r else dset (.str "Properties") p r)
      else dset (.str "Properties") p (if p = propsOf r then r else dset (.str "Properties") p r)) =
      (if p = propsOf r then r else dset (.str "Properties") p r) := by
    rw [if_pos]; exact h1.symm
  rw [hsame]
  split at h
  · rename_i hty
    rw [if_pos hty]
    split at h
    · cases h
    · rename_i al ha
      split at h
      · cases h
      · rename_i ps' hps
        cases h
        rw [← aliasParam_congr ht, hps]
  · rename_i hty
    rw [if_neg hty]
    cases h
    rfl

theorem replaceResources_again {t t' : Val} (ht : t.getD "Parameters" .none = t'.getD "Parameters" .none) :
    ∀ {res res' : List (Key × Val)} {ps : List Val}, replaceResources t res = .ok (res', ps) →
    replaceResources t' res' = .ok (res', ps) := by
  intro res
  induction res with
  | nil => intro res' ps h; rw [replaceResources] at h; cases h; rw [replaceResources]
  | cons kr rest ih =>
    intro res' ps h
    obtain ⟨k, r⟩ := kr
    rw [replaceResources] at h
    split at h
    · cases h
    · rename_i r' ps1 h1
      split at h
      · cases h
      · rename_i rest' ps2 h2
        cases h
        rw [replaceResources, replaceResource_again h1 ht, ih h2]

theorem replaceResources_lookup {t : Val} : ∀ {res res' : List (Key × Val)} {ps : List Val},
    replaceResources t res = .ok (res', ps) → res'.map Prod.fst = res.map Prod.fst ∧
    ∀ n, (dlookup n res = none ∧ dlookup n res' = none) ∨
      ∃ r r' q, dlookup n res = some r ∧ dlookup n res' = some r' ∧ replaceResource t r = .ok (r', q) := by
  intro res
  induction res with
  | nil => intro res' ps h; rw [replaceResources] at h; cases h; exact ⟨rfl, fun n => Or.inl ⟨rfl, rfl⟩⟩
  | cons kr rest ih =>
    intro res' ps h
    obtain ⟨k, r⟩ := kr
    rw [replaceResources] at h
    split at h
    · cases h
    · rename_i r' ps1 h1
      split at h
      · cases h
      · rename_i rest' ps2 h2
        cases h
        obtain ⟨hk, hl⟩ := ih h2
        refine ⟨by simp [hk], ?_⟩
        intro n
        simp only [dlookup]
        by_cases hn : k = n
        · simp only [hn, if_true]
          exact Or.inr ⟨r, r', ps1, rfl, rfl, h1⟩
        · simp only [hn, if_false]
          exact hl n

/-- the run as a whole -/
theorem replaceLocalCode_spec {t t' : Val} {ps : List Val} (h : replaceLocalCode t = .ok (t', ps)) :
    ∃ kvs, t = .dict kvs ∧ ((dlookup (Key.str "Resources") kvs = none ∧ t' = t) ∨
      ∃ res res' q, dlookup (Key.str "Resources") kvs = some (.dict res) ∧ replaceResources t res = .ok (res', q) ∧
        t' = .dict (dset (.str "Resources") (.dict res') kvs)) := by
  unfold replaceLocalCode at h
  split at h
  · rename_i kvs
    refine ⟨kvs, rfl, ?_⟩
    split at h
    · cases h
    · split at h
      · rename_i res hres
        split at h
        · cases h
        · rename_i res' q hr
          cases h
          cases hl : dlookup (Key.str "Resources") kvs with
          | none => left; exact ⟨rfl, by simp [dhas, hl]⟩
          | some x =>
            rw [hl, Option.getD_some] at hres
            subst hres
            right
            exact ⟨res, res', q, rfl, hr, by simp [dhas, hl]⟩
      · cases h
  · cases h

/-- **C41** (twice). A second run succeeds and changes nothing. -/
theorem C41_idempotent {t t' : Val} {ps : List Val} (h : replaceLocalCode t = .ok (t', ps)) :
    replaceLocalCode t' = .ok (t', ps) := by
  obtain ⟨kvs, rfl, ⟨_, rfl⟩ | ⟨res, res', q, hl, hr, rfl⟩⟩ := replaceLocalCode_spec h
  · exact h
  · have hpar : ∀ k, k ≠ "Resources" → ∀ d, (Val.dict kvs).getD k d = (Val.dict (dset (.str "Resources") (.dict res') kvs)).getD k d := by
      intro k hk d
      have : Key.str "Resources" ≠ Key.str k := by intro he; injection he with he; exact hk he.symm
      simp only [Val.getD, dlookup_dset, if_neg this]
    have hglob : globalAlias (.dict kvs) = globalAlias (.dict (dset (.str "Resources") (.dict res') kvs)) := by
      unfold globalAlias
      rw [← hpar "Globals" (by decide)]
      split
      · rfl
      · split
        · rfl
        · split
          · rfl
          · exact aliasParam_congr (hpar "Parameters" (by decide) _)
    unfold replaceLocalCode at h ⊢
    dsimp only at h ⊢
    rw [← hglob]
    split at h
    · cases h
    · rename_i ps0 hps
      rw [hl, Option.getD_some] at h
      dsimp only at h
      rw [hr] at h
      dsimp only at h
      simp only [dlookup_dset, if_true, Option.getD_some, replaceResources_again (hpar "Parameters" (by decide) _) hr,
        dhas_dset, decide_true, Bool.true_or, dset_dset]
      have hps' := (Except.ok.inj h)
      rw [Prod.mk.injEq] at hps'
      rw [← hps'.2]

/-- **C41** (rest of the template). Other sections, the names of the resources and everything of a resource but its
properties are untouched. -/
theorem C41_rest_untouched {t t' : Val} {ps : List Val} (h : replaceLocalCode t = .ok (t', ps)) :
    (∀ k p, k ≠ .str "Resources" → look t' (k :: p) = look t (k :: p)) ∧
    (∀ n k p, k ≠ .str "Properties" → look t' (.str "Resources" :: n :: k :: p) = look t (.str "Resources" :: n :: k :: p)) := by
  obtain ⟨kvs, rfl, ⟨_, rfl⟩ | ⟨res, res', q, hl, hr, rfl⟩⟩ := replaceLocalCode_spec h
  · exact ⟨fun _ _ _ => rfl, fun _ _ _ _ => rfl⟩
  · constructor
    · intro k p hk
      simp only [look, dlookup_dset, if_neg (Ne.symm hk)]
    · intro n k p hk
      simp only [look, dlookup_dset, if_true, hl]
      rcases (replaceResources_lookup hr).2 n with ⟨h1, h2⟩ | ⟨r, r', q', h1, h2, h3⟩
      · rw [h1, h2]
      · rw [h1, h2]
        obtain ⟨rd, pr, rfl, hp, rfl⟩ := replaceResource_spec h3
        simp only [look]
        by_cases he : pr = propsOf rd
        · rw [if_pos he]
        · rw [if_neg he, dlookup_dset, if_neg (Ne.symm hk)]

/-- **C41** (other properties). A property that is neither the code reference of its serverless type nor the body of an
interface is untouched, with everything below it. -/
theorem C41_properties_untouched_partial {t t' : Val} {ps : List Val} (h : replaceLocalCode t = .ok (t', ps)) (n k : Key)
    (p : List Key) (hk : ∀ ty, HasType t n ty → (∀ key, (ty, key) ∈ codeProperty → k ≠ .str key) ∧
      (ty = "AWS::Serverless::Api" → k ≠ .str "DefinitionBody")) :
    look t' (.str "Resources" :: n :: .str "Properties" :: k :: p) =
      look t (.str "Resources" :: n :: .str "Properties" :: k :: p) := by
  obtain ⟨kvs, rfl, ⟨_, rfl⟩ | ⟨res, res', q, hl, hr, rfl⟩⟩ := replaceLocalCode_spec h
  · rfl
  · simp only [look, dlookup_dset, if_true, hl]
    rcases (replaceResources_lookup hr).2 n with ⟨h1, h2⟩ | ⟨r, r', q', h1, h2, h3⟩
    · rw [h1, h2]
    · rw [h1, h2]
      obtain ⟨rd, pr, rfl, hp, rfl⟩ := replaceResource_spec h3
      simp only [look]
      by_cases hne : pr = propsOf rd
      · rw [if_pos hne]
      · rw [if_neg hne, dlookup_dset, if_pos rfl]
        rcases updateProps_spec hp with hpe | ⟨kv, k', v', hprops, rfl, htouch⟩
        · exact absurd hpe hne
        · have hk' : k' ≠ k := by
            rintro rfl
            have hty : ∀ s, typeOf rd = .str s → HasType (.dict kvs) n s := by
              intro s hs
              simp only [HasType, look, hl, h1]
              unfold typeOf at hs
              cases hd : dlookup (Key.str "Type") rd with
              | none => rw [hd] at hs; cases hs
              | some x => rw [hd, Option.getD_some] at hs; rw [hs]
            rcases htouch with ⟨s, key, hs, hmem, rfl⟩ | ⟨hs, rfl⟩
            · exact (hk s (hty s hs)).1 key hmem rfl
            · exact (hk _ (hty _ hs)).2 rfl rfl
          unfold propsOf at hprops
          cases hd : dlookup (Key.str "Properties") rd with
          | none => rw [hd] at hprops; cases hprops
          | some x =>
            rw [hd, Option.getD_some] at hprops
            subst hprops
            simp only [look, dlookup_dset, if_neg hk']

/-- the run on one named resource -/
theorem replaceLocalCode_at {t t' : Val} {ps : List Val} (h : replaceLocalCode t = .ok (t', ps)) {n k : Key} {ty : String}
    {v : Val} (hty : HasType t n ty) (hv : look t [.str "Resources", n, .str "Properties", k] = some v) :
    ∃ props p, dlookup k props = some v ∧ updateProps (.str ty) (.dict props) = .ok p ∧
      (∀ k', look t' [.str "Resources", n, .str "Properties", k'] = look p [k']) ∧
      ∀ k', look t [.str "Resources", n, .str "Properties", k'] = look (.dict props) [k'] := by
  obtain ⟨kvs, rfl, ⟨hno, rfl⟩ | ⟨res, res', q, hl, hr, rfl⟩⟩ := replaceLocalCode_spec h
  · simp [HasType, look, hno] at hty
  · simp only [HasType, look, hl] at hty hv
    rcases (replaceResources_lookup hr).2 n with ⟨h1, h2⟩ | ⟨r, r', q', h1, h2, h3⟩
    · rw [h1] at hty; cases hty
    · rw [h1] at hty hv
      obtain ⟨rd, pr, rfl, hp, rfl⟩ := replaceResource_spec h3
      simp only [look] at hty hv
      have htype : typeOf rd = .str ty := by
        unfold typeOf
        cases hd : dlookup (Key.str "Type") rd with
        | none => rw [hd] at hty; cases hty
        | some x => rw [hd] at hty; simpa [look] using hty
      have hprops : ∃ props, dlookup (Key.str "Properties") rd = some (.dict props) ∧ dlookup k props = some v := by
        cases hd : dlookup (Key.str "Properties") rd with
        | none => rw [hd] at hv; cases hv
        | some x =>
          rw [hd] at hv
          cases x with
          | dict props =>
            simp only [look] at hv
            cases hk : dlookup k props with
            | none => rw [hk] at hv; cases hv
            | some w => rw [hk] at hv; exact ⟨props, rfl, by rw [hk]; exact hv⟩
          | none => cases hv
          | bool => cases hv
          | int => cases hv
          | flt => cases hv
          | str => cases hv
          | list => cases hv
      obtain ⟨props, hd, hk⟩ := hprops
      have hpo : propsOf rd = .dict props := by simp [propsOf, hd]
      rw [htype, hpo] at hp
      refine ⟨props, pr, hk, hp, ?_, fun k' => by simp only [look, hl, h1, hd]⟩
      intro k'
      simp only [look, dlookup_dset, if_true, h2, hpo]
      by_cases he : pr = .dict props
      · rw [if_pos he, he, hd]
      · rw [if_neg he, dlookup_dset, if_pos rfl]

/-- **C41** (S3 references). An S3 reference is untouched, except in an application. -/
theorem C41_s3_untouched_partial {t t' : Val} {ps : List Val} (h : replaceLocalCode t = .ok (t', ps)) {n : Key}
    {ty key s : String} (hty : HasType t n ty) (hc : (ty, key) ∈ codeProperty) (happ : ty ≠ "AWS::Serverless::Application")
    (hs : look t [.str "Resources", n, .str "Properties", .str key] = some (.str s)) (h3 : IsS3 s) :
    look t' [.str "Resources", n, .str "Properties", .str key] = some (.str s) := by
  obtain ⟨props, p, hk, hp, hlook, hbefore⟩ := replaceLocalCode_at h hty hs
  rw [hlook]
  have hself : look (.dict props) [.str key] = some (.str s) := by simp [look, hk]
  simp only [codeProperty, List.mem_cons, Prod.mk.injEq, List.not_mem_nil, or_false] at hc
  rcases hc with ⟨rfl, rfl⟩ | ⟨rfl, rfl⟩ | ⟨rfl, rfl⟩ | ⟨rfl, rfl⟩ | ⟨rfl, rfl⟩
  · rw [updateProps, if_pos rfl] at hp
    obtain ⟨_, hq, _, h1, _⟩ := updateToS3_spec hp
    cases hq
    rw [h1 s hk h3]; exact hself
  · rw [updateProps, if_neg (by decide), if_pos rfl] at hp
    obtain ⟨_, hq, _, h1, _⟩ := updateIfSet_spec hp
    cases hq
    rw [h1 s hk h3]; exact hself
  · exact absurd rfl happ
  · rw [updateProps, if_neg (by decide), if_neg (by decide), if_neg (by decide), if_pos rfl] at hp
    obtain ⟨_, hq, ⟨_, hu⟩ | ⟨_, rfl⟩⟩ := updateApi_spec hp
    · cases hq
      obtain ⟨_, hq, _, h1, _⟩ := updateToS3_spec hu
      cases hq
      rw [h1 s hk h3]; exact hself
    · cases hq
      simp [look, dlookup_dset, hk]
  · rw [updateProps, if_neg (by decide), if_neg (by decide), if_neg (by decide), if_neg (by decide), if_pos rfl] at hp
    obtain ⟨_, hq, _, h1, _⟩ := updateIfSet_spec hp
    cases hq
    rw [h1 s hk h3]; exact hself

/-- **C41** (local references). A local path is replaced by the placeholder, except in an interface that has a body,
authorisation or cross origin settings. -/
theorem C41_local_replaced_partial {t t' : Val} {ps : List Val} (h : replaceLocalCode t = .ok (t', ps)) {n : Key}
    {ty key s : String} (hty : HasType t n ty) (hc : (ty, key) ∈ codeProperty)
    (hs : look t [.str "Resources", n, .str "Properties", .str key] = some (.str s)) (h3 : IsLocal s)
    (hbare : ty = "AWS::Serverless::Api" → ∀ k ∈ ["DefinitionBody", "Auth", "Cors"],
      look t [.str "Resources", n, .str "Properties", .str k] = none) :
    look t' [.str "Resources", n, .str "Properties", .str key] = some (.str "s3://bucket/value") := by
  obtain ⟨props, p, hk, hp, hlook, hbefore⟩ := replaceLocalCode_at h hty hs
  rw [hlook]
  have hself : look (.dict (dset (.str key) placeholder props)) [.str key] = some (.str "s3://bucket/value") := by
    simp [look, dlookup_dset, placeholder]
  simp only [codeProperty, List.mem_cons, Prod.mk.injEq, List.not_mem_nil, or_false] at hc
  rcases hc with ⟨rfl, rfl⟩ | ⟨rfl, rfl⟩ | ⟨rfl, rfl⟩ | ⟨rfl, rfl⟩ | ⟨rfl, rfl⟩
  · rw [updateProps, if_pos rfl] at hp
    obtain ⟨_, hq, _, _, h1⟩ := updateToS3_spec hp
    cases hq
    rw [h1 s hk h3.2]; exact hself
  · rw [updateProps, if_neg (by decide), if_pos rfl] at hp
    obtain ⟨_, hq, _, _, h1⟩ := updateIfSet_spec hp
    cases hq
    rw [h1 s hk h3]; exact hself
  · rw [updateProps, if_neg (by decide), if_neg (by decide), if_pos rfl] at hp
    obtain ⟨_, hq, _, h1⟩ := updateLocation_spec hp
    cases hq
    rw [h1 s hk h3.1]; exact hself
  · rw [updateProps, if_neg (by decide), if_neg (by decide), if_neg (by decide), if_pos rfl] at hp
    obtain ⟨_, hq, ⟨_, hu⟩ | ⟨hb, rfl⟩⟩ := updateApi_spec hp
    · cases hq
      obtain ⟨_, hq, _, _, h1⟩ := updateToS3_spec hu
      cases hq
      rw [h1 s hk h3.2]; exact hself
    · cases hq
      exfalso
      apply hb
      have : ∀ k ∈ ["DefinitionBody", "Auth", "Cors"], dhas (Key.str k) props = false := by
        intro k hkm
        cases hd : dhas (Key.str k) props with
        | false => rfl
        | true =>
          exfalso
          rw [dhas, Option.isSome_iff_exists] at hd
          obtain ⟨w, hw⟩ := hd
          have hnone := hbare rfl k hkm
          rw [hbefore] at hnone
          simp [look, hw] at hnone
      exact ⟨this _ (by decide), this _ (by decide), this _ (by decide)⟩
  · rw [updateProps, if_neg (by decide), if_neg (by decide), if_neg (by decide), if_neg (by decide), if_pos rfl] at hp
    obtain ⟨_, hq, _, _, h1⟩ := updateIfSet_spec hp
    cases hq
    rw [h1 s hk h3]; exact hself

/-- the claim in full: S3 references and all properties other than local code references are untouched -/
def C41_statement : Prop := ∀ (t t' : Val) (ps : List Val), replaceLocalCode t = .ok (t', ps) →
  (∀ n ty k v, HasType t n ty → look t [.str "Resources", n, .str "Properties", k] = some v →
    ((ty, k) ∉ codeProperty.map (fun c => (c.1, Key.str c.2)) ∨ ∃ s, v = .str s ∧ IsS3 s) →
    look t' [.str "Resources", n, .str "Properties", k] = some v) ∧
  replaceLocalCode t' = .ok (t', ps)

/-- a template of one resource -/
def oneResource (ty : String) (props : List (Key × Val)) : Val :=
  .dict [(.str "Resources", .dict [(.str "A", .dict [(.str "Type", .str ty), (.str "Properties", .dict props)])])]

/-- an inline interface definition is destroyed -/
theorem C41_inline_violated : ¬ C41_statement := by
  intro h
  have := (h (oneResource "AWS::Serverless::Api" [(.str "DefinitionBody", .dict [(.str "swagger", .str "2.0")])])
    (oneResource "AWS::Serverless::Api" [(.str "DefinitionBody", .str "")]) [] (by decide)).1 (.str "A")
    "AWS::Serverless::Api" (.str "DefinitionBody") (.dict [(.str "swagger", .str "2.0")]) rfl rfl (Or.inl (by decide))
  revert this
  decide

/-- the S3 location of a nested application is overwritten -/
theorem C41_application_violated : ∃ t t' ps, replaceLocalCode t = .ok (t', ps) ∧
    look t [.str "Resources", .str "A", .str "Properties", .str "Location"] = some (.str "s3://apps/one.yaml") ∧
    look t' [.str "Resources", .str "A", .str "Properties", .str "Location"] = some (.str "s3://bucket/value") :=
  ⟨oneResource "AWS::Serverless::Application" [(.str "Location", .str "s3://apps/one.yaml")],
   oneResource "AWS::Serverless::Application" [(.str "Location", .str "s3://bucket/value")], [], by decide, by decide, by decide⟩

/-- a function with inline code gains a code reference it did not have -/
theorem C41_function_gains_reference : ∃ t t' ps, replaceLocalCode t = .ok (t', ps) ∧
    look t [.str "Resources", .str "A", .str "Properties", .str "CodeUri"] = none ∧
    look t' [.str "Resources", .str "A", .str "Properties", .str "CodeUri"] = some (.str "s3://bucket/value") :=
  ⟨oneResource "AWS::Serverless::Function" [(.str "InlineCode", .str "pass")],
   oneResource "AWS::Serverless::Function" [(.str "InlineCode", .str "pass"), (.str "CodeUri", .str "s3://bucket/value")], [],
   by decide, by decide, by decide⟩

/-- the parameter an alias names -/
theorem mem_aliasParam {t al : Val} {ps : List Val} (h : aliasParam t al = .ok ps) (s : String) :
    Val.str s ∈ ps ↔ al = .dict [(.str "Ref", .str s)] ∧ inParameters t (.str s) = .ok true := by
  unfold aliasParam at h
  split at h
  · rename_i k v
    split at h
    · rename_i hk
      subst hk
      cases hi : inParameters t v with
      | error e => rw [hi] at h; cases h
      | ok b =>
        rw [hi] at h
        cases h
        cases b with
        | true =>
          simp only [if_true, List.mem_singleton, Val.dict.injEq, List.cons.injEq, Prod.mk.injEq, true_and, and_true]
          constructor
          · intro he; subst he; exact ⟨rfl, hi⟩
          · intro he; exact he.1.symm
        | false =>
          simp only [Bool.false_eq_true, if_false, List.not_mem_nil, Val.dict.injEq, List.cons.injEq, Prod.mk.injEq,
            true_and, and_true, false_iff]
          rintro ⟨rfl, h2⟩
          rw [hi] at h2
          cases h2
    · rename_i hk
      cases h
      simp only [List.not_mem_nil, false_iff]
      rintro ⟨he, _⟩
      simp only [Val.dict.injEq, List.cons.injEq, Prod.mk.injEq, and_true] at he
      exact hk he.1
  · rename_i hno
    cases h
    simp only [List.not_mem_nil, false_iff]
    rintro ⟨rfl, _⟩
    exact hno _ _ rfl

/-- the parameters one resource names -/
theorem mem_replaceResource {t r' : Val} {r : List (Key × Val)} {ps : List Val}
    (h : replaceResource t (.dict r) = .ok (r', ps)) (s : String) :
    Val.str s ∈ ps ↔ dlookup (Key.str "Type") r = some (.str "AWS::Serverless::Function") ∧
      look (.dict r) [.str "Properties", .str "AutoPublishAlias"] = some (.dict [(.str "Ref", .str s)]) ∧
      inParameters t (.str s) = .ok true := by
  unfold replaceResource at h
  dsimp only at h
  change (match updateProps (typeOf r) (propsOf r) with | .error e => _ | .ok p => _) = _ at h
  cases hp : updateProps (typeOf r) (propsOf r) with
  | error e => rw [hp] at h; cases h
  | ok p =>
    rw [hp] at h
    dsimp only at h
    have hty : dlookup (Key.str "Type") r = some (.str "AWS::Serverless::Function") ↔
        (dlookup (Key.str "Type") r).getD .none = .str "AWS::Serverless::Function" := by
      cases dlookup (Key.str "Type") r <;> simp
    split at h
    · rename_i hf
      cases ha : p.getD "AutoPublishAlias" .none with
      | error e => rw [ha] at h; cases h
      | ok al =>
        rw [ha] at h
        dsimp only at h
        cases hq : aliasParam t al with
        | error e => rw [hq] at h; cases h
        | ok q =>
          rw [hq] at h
          cases h
          rw [mem_aliasParam hq, hty]
          have hlook : look (.dict r) [.str "Properties", .str "AutoPublishAlias"] =
              some (.dict [(.str "Ref", .str s)]) ↔ al = .dict [(.str "Ref", .str s)] := by
            have key : ∀ kvs : List (Key × Val), propsOf r = .dict kvs →
                look (.dict r) [.str "Properties", .str "AutoPublishAlias"] =
                  dlookup (Key.str "AutoPublishAlias") kvs := by
              intro kvs hk
              unfold propsOf at hk
              cases hd : dlookup (Key.str "Properties") r with
              | none => rw [hd] at hk; cases hk
              | some x =>
                rw [hd] at hk
                change x = _ at hk
                subst hk
                simp only [look, hd]
                cases dlookup (Key.str "AutoPublishAlias") kvs <;> rfl
            have key2 : ∀ kvs : List (Key × Val), propsOf r = .dict kvs →
                al = (dlookup (Key.str "AutoPublishAlias") kvs).getD .none := by
              intro kvs hk
              rcases updateProps_spec hp with rfl | ⟨kvs', k, v, h1, rfl, h3⟩
              · rw [hk] at ha
                simp only [Val.getD] at ha
                cases hd : dlookup (Key.str "AutoPublishAlias") kvs <;> rw [hd] at ha <;> cases ha <;> rfl
              · rw [hk] at h1
                cases h1
                have hne : k ≠ .str "AutoPublishAlias" := by
                  rintro rfl
                  rcases h3 with ⟨s', key', _, h4, h5⟩ | ⟨_, h5⟩
                  · cases h5
                    revert h4
                    simp [codeProperty]
                  · simp at h5
                simp only [Val.getD, dlookup_dset, if_neg hne] at ha
                cases hd : dlookup (Key.str "AutoPublishAlias") kvs <;> rw [hd] at ha <;> cases ha <;> rfl
            have hdict : ∃ kvs, propsOf r = .dict kvs := by
              rcases updateProps_spec hp with rfl | ⟨kvs', k, v, h1, rfl, h3⟩
              · cases hpr : propsOf r with
                | dict kvs => exact ⟨kvs, rfl⟩
                | _ => rw [hpr] at ha; simp [Val.getD] at ha
              · exact ⟨_, h1⟩
            obtain ⟨kvs, hk⟩ := hdict
            rw [key kvs hk, key2 kvs hk]
            cases dlookup (Key.str "AutoPublishAlias") kvs <;> simp
          rw [hlook]
          constructor
          · rintro ⟨h1, h2⟩; exact ⟨hf, h1, h2⟩
          · rintro ⟨_, h1, h2⟩; exact ⟨h1, h2⟩
    · rename_i hf
      cases h
      rw [hty]
      simp [hf]

theorem mem_replaceResources {t : Val} : ∀ {res res' : List (Key × Val)} {ps : List Val},
    replaceResources t res = .ok (res', ps) → ∀ p, p ∈ ps ↔
      ∃ n r r' q, (n, r) ∈ res ∧ replaceResource t r = .ok (r', q) ∧ p ∈ q := by
  intro res
  induction res with
  | nil => intro res' ps h p; rw [replaceResources] at h; cases h; simp
  | cons kr rest ih =>
    intro res' ps h p
    obtain ⟨k, r⟩ := kr
    rw [replaceResources] at h
    cases hr : replaceResource t r with
    | error e => rw [hr] at h; cases h
    | ok x =>
      obtain ⟨r', q⟩ := x
      rw [hr] at h
      cases hrest : replaceResources t rest with
      | error e => rw [hrest] at h; cases h
      | ok y =>
        obtain ⟨rest', q'⟩ := y
        rw [hrest] at h
        cases h
        rw [List.mem_append, ih hrest]
        constructor
        · rintro (hp | ⟨n, r2, r2', q2, h1, h2, h3⟩)
          · exact ⟨k, r, r', q, List.mem_cons_self, hr, hp⟩
          · exact ⟨n, r2, r2', q2, List.mem_cons_of_mem _ h1, h2, h3⟩
        · rintro ⟨n, r2, r2', q2, h1, h2, h3⟩
          rcases List.mem_cons.1 h1 with he | h1
          · cases he
            rw [hr] at h2
            cases h2
            exact .inl h3
          · exact .inr ⟨n, r2, r2', q2, h1, h2, h3⟩

/-- The parameters that are given the value `Alias` are exactly those the alias of `Globals` or of a function refers to
and the template defines. -/
theorem C41_alias_parameters {t t' : Val} {ps : List Val} (hw : t.WF) (h : replaceLocalCode t = .ok (t', ps))
    (hp : ∃ d, look t [.str "Parameters"] = some (.dict d)) (s : String) :
    Val.str s ∈ ps ↔ (∃ v, look t [.str "Parameters", .str s] = some v) ∧
      (look t [.str "Globals", .str "Function", .str "AutoPublishAlias"] = some (.dict [(.str "Ref", .str s)]) ∨
        ∃ n, HasType t n "AWS::Serverless::Function" ∧
          look t [.str "Resources", n, .str "Properties", .str "AutoPublishAlias"] =
            some (.dict [(.str "Ref", .str s)])) := by
  cases t with
  | dict kvs =>
    obtain ⟨d, hd⟩ := hp
    have hd' : dlookup (Key.str "Parameters") kvs = some (.dict d) := by
      cases hx : dlookup (Key.str "Parameters") kvs with
      | none => simp [look, hx] at hd
      | some x => simpa [look, hx] using hd
    have hin : inParameters (.dict kvs) (.str s) = .ok true ↔
        ∃ v, look (.dict kvs) [.str "Parameters", .str s] = some v := by
      simp only [inParameters, Val.getD, hd', look]
      cases hx : dlookup (Key.str s) d <;> simp [dhas, hx]
    rw [← hin]
    have hglob : ∀ {q}, globalAlias (.dict kvs) = .ok q → (Val.str s ∈ q ↔
        look (.dict kvs) [.str "Globals", .str "Function", .str "AutoPublishAlias"] =
          some (.dict [(.str "Ref", .str s)]) ∧ inParameters (.dict kvs) (.str s) = .ok true) := by
      intro q hq
      unfold globalAlias at hq
      simp only [Val.getD] at hq
      have empty : ∀ {x}, aliasParam (.dict kvs) .none = .ok x → x = [] := by
        intro x hx; simp only [aliasParam] at hx; cases hx; rfl
      cases hg : dlookup (Key.str "Globals") kvs with
      | none =>
        rw [hg] at hq
        rw [empty hq]
        simp [look, hg]
      | some g =>
        rw [hg] at hq
        cases g with
        | dict g =>
          simp only [Option.getD_some] at hq
          cases hf : dlookup (Key.str "Function") g with
          | none =>
            rw [hf] at hq
            rw [empty hq]
            simp [look, hg, hf]
          | some f =>
            rw [hf] at hq
            cases f with
            | dict f =>
              simp only [Option.getD_some] at hq
              cases ha : dlookup (Key.str "AutoPublishAlias") f with
              | none =>
                rw [ha] at hq
                rw [empty hq]
                simp [look, hg, hf, ha]
              | some a =>
                rw [ha] at hq
                rw [mem_aliasParam hq]
                simp [look, hg, hf, ha]
            | _ => simp at hq
        | _ => simp at hq
    unfold replaceLocalCode at h
    dsimp only at h
    cases hga : globalAlias (.dict kvs) with
    | error e => rw [hga] at h; cases h
    | ok q =>
      rw [hga] at h
      dsimp only at h
      cases hr : dlookup (Key.str "Resources") kvs with
      | none =>
        rw [hr] at h
        simp only [Option.getD_none, replaceResources] at h
        cases h
        rw [List.append_nil, hglob hga]
        have : ∀ n p, look (.dict kvs) (.str "Resources" :: n :: p) = none := by intro n p; simp [look, hr]
        simp only [this, HasType, reduceCtorEq, false_and, exists_false, or_false]
        rw [and_comm]
      | some R =>
        rw [hr] at h
        cases R with
        | dict res =>
          dsimp only [Option.getD_some] at h
          cases hx : replaceResources (.dict kvs) res with
          | error e => rw [hx] at h; cases h
          | ok y =>
            obtain ⟨res', q'⟩ := y
            rw [hx] at h
            cases h
            rw [List.mem_append, hglob hga, mem_replaceResources hx]
            have hwr : (Val.dict res).WF := at_wf ((at_obj hw).2 hr) hw
            have hres : (∃ n r r' q, (n, r) ∈ res ∧ replaceResource (.dict kvs) r = .ok (r', q) ∧ Val.str s ∈ q) ↔
                inParameters (.dict kvs) (.str s) = .ok true ∧ ∃ n, HasType (.dict kvs) n "AWS::Serverless::Function" ∧
                  look (.dict kvs) [.str "Resources", n, .str "Properties", .str "AutoPublishAlias"] =
                    some (.dict [(.str "Ref", .str s)]) := by
              constructor
              · rintro ⟨n, r, r', q, h1, h2, h3⟩
                cases r with
                | dict r =>
                  obtain ⟨h4, h5, h6⟩ := (mem_replaceResource h2 s).1 h3
                  have hl := dlookup_of_mem hwr.1 h1
                  refine ⟨h6, n, by simp [HasType, look, hr, hl, h4], ?_⟩
                  simpa [look, hr, hl] using h5
                | _ => simp [replaceResource] at h2
              · rintro ⟨h6, n, h4, h5⟩
                rcases (replaceResources_lookup hx).2 n with ⟨h1, _⟩ | ⟨r, r', q, h1, _, h3⟩
                · simp [HasType, look, hr, h1] at h4
                · cases r with
                  | dict r =>
                    refine ⟨n, _, r', q, dlookup_mem h1, h3, (mem_replaceResource h3 s).2 ⟨?_, ?_, h6⟩⟩
                    · simp only [HasType, look, hr, h1] at h4
                      cases hty : dlookup (Key.str "Type") r with
                      | none => rw [hty] at h4; cases h4
                      | some x => rw [hty] at h4; exact h4
                    · simpa [look, hr, h1] using h5
                  | _ => simp [replaceResource] at h3
            rw [hres]
            constructor
            · rintro (⟨h1, h2⟩ | ⟨h1, h2⟩)
              · exact ⟨h2, .inl h1⟩
              · exact ⟨h1, .inr h2⟩
            · rintro ⟨h1, h2 | h2⟩
              · exact .inl ⟨h2, h1⟩
              · exact .inr ⟨h1, h2⟩
        | _ => simp at h
  | _ => simp [replaceLocalCode] at h

-- the hypotheses are met: an alias that names a parameter
example : replaceLocalCode (.dict [(.str "Parameters", .dict [(.str "P", .dict [])]), (.str "Resources", .dict [(.str "F",
    .dict [(.str "Type", .str "AWS::Serverless::Function"), (.str "Properties",
      .dict [(.str "CodeUri", .str "s3://a/b"), (.str "AutoPublishAlias", .dict [(.str "Ref", .str "P")])])])])]) =
    .ok (.dict [(.str "Parameters", .dict [(.str "P", .dict [])]), (.str "Resources", .dict [(.str "F",
    .dict [(.str "Type", .str "AWS::Serverless::Function"), (.str "Properties",
      .dict [(.str "CodeUri", .str "s3://a/b"), (.str "AutoPublishAlias", .dict [(.str "Ref", .str "P")])])])])],
    [.str "P"]) := by decide

/-- the hypotheses of the theorems above are met: a local path beside other properties -/
example : ∃ t t' ps, replaceLocalCode t = .ok (t', ps) ∧ HasType t (.str "A") "AWS::Serverless::Function" ∧
    look t [.str "Resources", .str "A", .str "Properties", .str "CodeUri"] = some (.str "src/") ∧ IsLocal "src/" ∧
    look t' [.str "Resources", .str "A", .str "Properties", .str "Handler"] = some (.str "a.b") :=
  ⟨oneResource "AWS::Serverless::Function" [(.str "Handler", .str "a.b"), (.str "CodeUri", .str "src/")],
   oneResource "AWS::Serverless::Function" [(.str "Handler", .str "a.b"), (.str "CodeUri", .str "s3://bucket/value")], [],
   by decide, by unfold HasType; decide, by decide, ⟨by decide, by unfold IsS3; decide⟩, by decide⟩

/-- and an S3 reference -/
example : ∃ t t' ps, replaceLocalCode t = .ok (t', ps) ∧ HasType t (.str "A") "AWS::Serverless::LayerVersion" ∧
    look t [.str "Resources", .str "A", .str "Properties", .str "ContentUri"] = some (.str "s3://a/b") ∧ IsS3 "s3://a/b" :=
  ⟨oneResource "AWS::Serverless::LayerVersion" [(.str "ContentUri", .str "s3://a/b")],
   oneResource "AWS::Serverless::LayerVersion" [(.str "ContentUri", .str "s3://a/b")], [],
   by decide, by unfold HasType; decide, by decide, by unfold IsS3; decide⟩

/-- **C41** The alias of a function may name a parameter by a number or a truth value: the latter is the number it stands for. -/
theorem C41_alias_kinds {top ps : List (Key × Val)} (h : dlookup (Key.str "Parameters") top = some (.dict ps)) (i : Int) (b : Bool) :
    aliasParam (.dict top) (.dict [(.str "Ref", .int i)]) = .ok (if dhas (Key.int i) ps then [.int i] else []) ∧
    aliasParam (.dict top) (.dict [(.str "Ref", .bool b)]) = .ok (if dhas (Key.int b.toInt) ps then [.bool b] else []) := by
  constructor
  · simp [aliasParam, inParameters, Val.getD, h]
  · cases b
    · simp [aliasParam, inParameters, Val.getD, h]; rfl
    · simp [aliasParam, inParameters, Val.getD, h]; rfl

example : aliasParam (.dict [(.str "Parameters", .dict [(.int 1, .none)])]) (.dict [(.str "Ref", .bool true)]) = .ok [.bool true] := by decide

end CfnLint
