import Verif.Spec.Update
import Verif.Lemmas.Dict
/-
C43: interrupted specification updates.
-/
namespace CfnLint
open Spec
variable {β σ : Type}

/-- the tag of the metadata matches the tag of the answer: the update will be skipped -/
def SameTag (m : File Metadata) (r : Response β) : Prop :=
  ∃ md e, m = .whole md ∧ dlookup "etag" md = some e ∧ e ≠ "" ∧ r.etag = some e

theorem urlHasNewer_false {m : File Metadata} {r : Response β} :
    urlHasNewer m (some r) = .ok false ↔ SameTag m r := by
  unfold urlHasNewer SameTag
  cases m with
  | missing => simp [loadMetadata, dlookup]
  | torn => simp [loadMetadata]
  | whole md =>
    simp only [loadMetadata]
    cases he : dlookup "etag" md with
    | none => simp [he]
    | some c =>
      simp only
      cases hr : r.etag with
      | none => simp
      | some e =>
        simp only [Except.ok.injEq, Bool.not_eq_false', Bool.and_eq_true, bne_iff_ne, beq_iff_eq]
        constructor
        · rintro ⟨⟨h1, h2⟩, h3⟩; exact ⟨md, c, rfl, he, h1, by rw [h3]⟩
        · rintro ⟨_, c', e1, e2, h1, h2⟩
          cases e1
          rw [he] at e2
          cases e2
          cases h2
          exact ⟨⟨h1, h1⟩, rfl⟩

theorem urlHasNewer_true {m : File Metadata} {r : Response β} (hm : m ≠ .torn) (hs : ¬ SameTag m r) :
    urlHasNewer m (some r) = .ok true := by
  have h := mt urlHasNewer_false.1 hs
  cases hx : urlHasNewer m (some r) with
  | ok b => cases b with
    | true => rfl
    | false => exact absurd hx h
  | error e =>
    unfold urlHasNewer at hx
    cases m with
    | torn => exact absurd rfl hm
    | missing => cases hx
    | whole md =>
      simp only [loadMetadata] at hx
      split at hx
      · cases hx
      · split at hx <;> cases hx

theorem urlHasNewer_torn {head : Option (Response β)} :
    urlHasNewer .torn head = .error (.valueError "Expecting value") := rfl

/-- a fetch which runs to its end writes the specification -/
theorem fetchSpec_good {process : β → PyM σ} {url : String} {r : Response β} {b : β} {s : σ} {d : Disk σ}
    (hm : d.metafile ≠ .torn) (hb : r.body = some b) (hs : process b = .ok s) :
    (fetchSpec process url (some r) d).result = .ok () ∧
      ((fetchSpec process url (some r) d).final d).spec = .whole s := by
  have hw : ∀ d' : Disk σ, writeSpec process r.body d' =
      ⟨[d', { d' with spec := .torn }, { d' with spec := .whole s }], .ok ()⟩ := by
    intro d'
    unfold writeSpec
    rw [hb]
    dsimp only
    rw [hs]
  unfold fetchSpec
  dsimp only
  split
  · rw [hw]; exact ⟨rfl, rfl⟩
  · split
    · rw [hw]; exact ⟨rfl, rfl⟩
    · split
      · rename_i er he
        cases hd : d.metafile with
        | torn => exact absurd hd hm
        | missing => rw [hd] at he; cases he
        | whole md => rw [hd] at he; cases he
      · rw [hw]; exact ⟨rfl, rfl⟩

/-- C43, exactly when a later update works: the metadata file is not torn, and if its tag is the server's then
the specification on disk is already the right one. -/
theorem C43_exactly_when {process : β → PyM σ} {url : String} {r : Response β} {b : β} {s : σ} {d : Disk σ}
    (hb : r.body = some b) (hs : process b = .ok s) :
    UpToDate process url r s d ↔ d.metafile ≠ .torn ∧ (SameTag d.metafile r → d.spec = .whole s) := by
  by_cases hm : d.metafile = .torn
  · simp only [hm, ne_eq, not_true_eq_false, false_and, iff_false]
    rintro ⟨h, _⟩
    rw [updateSpec, hm, urlHasNewer_torn] at h
    cases h
  · by_cases hsame : SameTag d.metafile r
    · simp only [hm, ne_eq, not_false_eq_true, true_and, hsame, true_imp_iff]
      rw [UpToDate, updateSpec, urlHasNewer_false.2 hsame]
      simp [Progress.final]
    · simp only [hm, ne_eq, not_false_eq_true, true_and, hsame, false_imp_iff, iff_true]
      rw [UpToDate, updateSpec, urlHasNewer_true hm hsame]
      exact fetchSpec_good hm hb hs

/-! ### Histories -/

/-- the tag in the metadata is one the server gave -/
def TagFrom (tags : String → Prop) (m : File Metadata) : Prop :=
  ∀ md e, m = .whole md → dlookup "etag" md = some e → tags e

theorem newMetadata_etag {url e : String} {md : Metadata} : dlookup "etag" (newMetadata url e md) = some e := by
  rw [newMetadata, dlookup_dset, if_neg (by decide), dlookup_dset, if_pos rfl]

theorem writeSpec_metafile {process : β → PyM σ} {body : Option β} {d d' : Disk σ}
    (h : d' ∈ (writeSpec process body d).states) : d'.metafile = d.metafile := by
  unfold writeSpec at h
  split at h
  · rw [List.mem_singleton.1 h]
  · split at h
    · rw [List.mem_singleton.1 h]
    · simp only [List.mem_cons, List.not_mem_nil, or_false] at h
      rcases h with rfl | rfl | rfl <;> rfl

/-- what an interrupted update can leave in the metadata file -/
theorem interrupted_metafile {process : β → PyM σ} {url : String} {a : Attempt β} {d d' : Disk σ}
    (h : Interrupted process url a d d') :
    d'.metafile = d.metafile ∨ d'.metafile = .torn ∨
      ∃ r e md, a.get = some r ∧ r.etag = some e ∧ e ≠ "" ∧ d'.metafile = .whole (newMetadata url e md) := by
  unfold Interrupted updateSpec at h
  split at h
  · rw [List.mem_singleton.1 h]; exact .inl rfl
  · rw [List.mem_singleton.1 h]; exact .inl rfl
  · unfold fetchSpec at h
    split at h
    · rw [List.mem_singleton.1 h]; exact .inl rfl
    · rename_i r hr
      split at h
      · exact .inl (writeSpec_metafile h)
      · rename_i e he
        split at h
        · exact .inl (writeSpec_metafile h)
        · rename_i hne
          split at h
          · rw [List.mem_singleton.1 h]; exact .inl rfl
          · rename_i md hmd
            simp only [List.mem_cons] at h
            rcases h with rfl | rfl | h
            · exact .inl rfl
            · exact .inr (.inl rfl)
            · exact .inr (.inr ⟨r, e, md, hr, he, hne, writeSpec_metafile h⟩)

theorem attempts_mono {step : Attempt β → Disk σ → Disk σ → Prop} {d d' : Disk σ} {as : List (Attempt β)}
    {P : List (Attempt β) → Disk σ → Prop} (h0 : P [] d)
    (hs : ∀ as a d₁ d₂, P as d₁ → step a d₁ d₂ → P (as ++ [a]) d₂) (h : Attempts step d as d') : P as d' := by
  induction h with
  | start => exact h0
  | more _ hstep ih => exact hs _ _ _ _ ih hstep

/-- C43 when the server moves on. Whatever was interrupted, if the metadata file is not torn and the server's
tag is not one it gave before (or it gives none), the next update brings the specification up to date. -/
theorem C43_new_version_partial {process : β → PyM σ} {url : String} {d₀ d : Disk σ} {as : List (Attempt β)}
    {r : Response β} {b : β} {s : σ} (h0 : Installed d₀) (h : Attempts (Interrupted process url) d₀ as d)
    (hm : d.metafile ≠ .torn) (hb : r.body = some b) (hs : process b = .ok s)
    (hnew : ∀ a ∈ as, ∀ r', Answered a r' → ∀ e, r'.etag = some e → r.etag ≠ some e) :
    UpToDate process url r s d := by
  refine (C43_exactly_when hb hs).2 ⟨hm, ?_⟩
  rintro ⟨md, e, h1, h2, h3, h4⟩
  have hinv : TagFrom (fun e => ∃ a ∈ as, ∃ r', Answered a r' ∧ r'.etag = some e) d.metafile := by
    refine attempts_mono (P := fun as d => TagFrom (fun e => ∃ a ∈ as, ∃ r', Answered a r' ∧ r'.etag = some e)
      d.metafile) ?_ ?_ h
    · intro md e h; rw [h0.1] at h; cases h
    · intro as a d₁ d₂ hP hstep md e hmd he
      rcases interrupted_metafile hstep with hx | hx | ⟨r', e', md', hr', he', _, hx⟩
      · obtain ⟨a', ha', h⟩ := hP md e (hx ▸ hmd) he
        exact ⟨a', List.mem_append_left _ ha', h⟩
      · rw [hx] at hmd; cases hmd
      · rw [hx] at hmd
        cases hmd
        rw [newMetadata_etag] at he
        cases he
        exact ⟨a, by simp, r', .inr hr', he'⟩
  obtain ⟨a, ha, r', hr', he'⟩ := hinv md e h1 h2
  exact absurd h4 (hnew a ha r' hr' e he')

/-- the metadata tells the truth about the specification -/
def Honest (process : β → PyM σ) (rs : Response β → Prop) (d : Disk σ) : Prop :=
  d.metafile ≠ .torn ∧ ∀ md e, d.metafile = .whole md → dlookup "etag" md = some e →
    ∃ r b s, rs r ∧ r.etag = some e ∧ r.body = some b ∧ process b = .ok s ∧ d.spec = .whole s

/-- the whole of an update that ended well, with a tagged answer -/
theorem completed_honest {process : β → PyM σ} {url : String} {a : Attempt β} {rs : Response β → Prop} {d d' : Disk σ}
    (hd : Honest process rs d) (h : Completed process url a d d') (ha : ∀ r, Answered a r → rs r)
    (htag : ∀ r, a.get = some r → ∃ e, r.etag = some e ∧ e ≠ "") : Honest process rs d' := by
  obtain ⟨hres, rfl⟩ := h
  unfold updateSpec at hres ⊢
  split at hres
  · cases hres
  · exact hd
  · rename_i hx
    unfold fetchSpec at hres ⊢
    split at hres
    · cases hres
    · rename_i r hr
      obtain ⟨e, he, hne⟩ := htag r hr
      rw [he] at hres ⊢
      dsimp only at hres ⊢
      rw [if_neg hne] at hres ⊢
      split at hres
      · cases hres
      · rename_i md hmd
        dsimp only at hres ⊢
        unfold writeSpec at hres ⊢
        split at hres
        · cases hres
        · rename_i b hb
          dsimp only at hres ⊢
          split at hres
          · cases hres
          · rename_i s hs
            simp only [Progress.final, List.getLast?_cons_cons, List.getLast?_singleton, Option.getD_some]
            refine ⟨by simp, ?_⟩
            intro md' e' hmd' he'
            cases hmd'
            rw [newMetadata_etag] at he'
            cases he'
            exact ⟨r, b, s, ha r (.inr hr), he, hb, hs, rfl⟩

/-- an update that ends well, or stops before it writes anything -/
def CleanStep (process : β → PyM σ) (url : String) (a : Attempt β) (d d' : Disk σ) : Prop :=
  Completed process url a d d' ∨ d' = d

/-- C43 for updates that are not interrupted between their first and their last write: if every answer carries a
tag and equal tags mean equal bodies, a later update brings the specification up to date. -/
theorem C43_uninterrupted_partial {process : β → PyM σ} {url : String} {d₀ d : Disk σ} {as : List (Attempt β)}
    {r : Response β} {b : β} {s : σ} (h0 : Installed d₀) (h : Attempts (CleanStep process url) d₀ as d)
    (htag : ∀ a ∈ as, ∀ r, a.get = some r → ∃ e, r.etag = some e ∧ e ≠ "")
    (hf : Faithful (fun r' => r' = r ∨ ∃ a ∈ as, Answered a r'))
    (hb : r.body = some b) (hs : process b = .ok s) : UpToDate process url r s d := by
  have hinv : (∀ a ∈ as, ∀ r, a.get = some r → ∃ e, r.etag = some e ∧ e ≠ "") →
      Honest process (fun r' => ∃ a ∈ as, Answered a r') d := by
    refine attempts_mono (P := fun as d => (∀ a ∈ as, ∀ r, a.get = some r → ∃ e, r.etag = some e ∧ e ≠ "") →
      Honest process (fun r' => ∃ a ∈ as, Answered a r') d) ?_ ?_ h
    · intro _
      refine ⟨by rw [h0.1]; simp, ?_⟩
      intro md e hm; rw [h0.1] at hm; cases hm
    · intro as a d₁ d₂ hP hstep ht
      have hd₁ : Honest process (fun r' => ∃ a' ∈ as ++ [a], Answered a' r') d₁ := by
        obtain ⟨h1, h2⟩ := hP (fun a ha => ht a (List.mem_append_left _ ha))
        refine ⟨h1, fun md e hm he => ?_⟩
        obtain ⟨r, b, s, ⟨a', ha', hr⟩, h⟩ := h2 md e hm he
        exact ⟨r, b, s, ⟨a', List.mem_append_left _ ha', hr⟩, h⟩
      rcases hstep with hc | rfl
      · exact completed_honest hd₁ hc (fun r hr => ⟨a, by simp, hr⟩) (ht a (by simp))
      · exact hd₁
  obtain ⟨hm, hh⟩ := hinv htag
  refine (C43_exactly_when hb hs).2 ⟨hm, ?_⟩
  rintro ⟨md, e, h1, h2, h3, h4⟩
  obtain ⟨r', b', s', hr', he', hb', hs', hspec⟩ := hh md e h1 h2
  have := hf r' r (.inr hr') (.inl rfl) e b' b he' h4 hb' hb
  subst this
  rw [hs] at hs'
  cases hs'
  exact hspec

/-! ### The statement without restriction -/

/-- C43 in full -/
def C43_statement : Prop :=
  ∀ (β σ : Type) (process : β → PyM σ) (url : String) (d₀ d : Disk σ) (as : List (Attempt β)) (r : Response β)
    (b : β) (s : σ), Installed d₀ → Attempts (Interrupted process url) d₀ as d →
    Faithful (fun r' => r' = r ∨ ∃ a ∈ as, Answered a r') → r.body = some b → process b = .ok s →
    UpToDate process url r s d

/-- version 1 of the server's specification -/
def versionOne : Response Nat := ⟨some "v1", some 1⟩
/-- the disk as installed, with specification 0 -/
def installedDisk : Disk Nat := ⟨.missing, .whole 0⟩
/-- the disk when the update is interrupted after the metadata is saved -/
def staleDisk : Disk Nat := ⟨.whole [("etag", "v1"), ("url", "u")], .whole 0⟩
/-- the disk when the update is interrupted while the metadata is written -/
def tornDisk : Disk Nat := ⟨.torn, .whole 0⟩

theorem faithful_one {as : List (Attempt Nat)} (h : ∀ a ∈ as, ∀ r, Answered a r → r = versionOne) :
    Faithful (fun r' => r' = versionOne ∨ ∃ a ∈ as, Answered a r') := by
  have hone : ∀ r, (r = versionOne ∨ ∃ a ∈ as, Answered a r) → r = versionOne := by
    rintro r (rfl | ⟨a, ha, hr⟩)
    · rfl
    · exact h a ha r hr
  intro r s hr hs e x y _ _ hx hy
  rw [hone r hr] at hx
  rw [hone s hs] at hy
  rw [hx] at hy
  exact Option.some.inj hy

theorem answered_one : ∀ a ∈ [(⟨some versionOne, some versionOne⟩ : Attempt Nat)], ∀ r, Answered a r → r = versionOne := by
  intro a ha r hr
  rw [List.mem_singleton.1 ha] at hr
  rcases hr with h | h <;> exact (Option.some.inj h).symm

/-- Fails: interrupted after the metadata is saved and before the specification is written, the specification
stays as it was: the later update believes it is current. -/
theorem C43_stale_violated : ¬ C43_statement := by
  intro h
  have hstep : Interrupted (fun n : Nat => (.ok n : PyM Nat)) "u" ⟨some versionOne, some versionOne⟩ installedDisk staleDisk := by
    show staleDisk ∈ _
    decide
  have := h Nat Nat (fun n => .ok n) "u" installedDisk staleDisk [⟨some versionOne, some versionOne⟩] versionOne 1 1
    ⟨rfl, 0, rfl⟩ (.more (as := []) .start hstep) (faithful_one answered_one) rfl rfl
  obtain ⟨_, h2⟩ := this
  revert h2
  decide

/-- the stale specification is never replaced while the server keeps that version -/
theorem C43_stale_forever {process : Nat → PyM Nat} {as : List (Attempt Nat)} {d : Disk Nat}
    (has : ∀ a ∈ as, a.head = some versionOne) (h : Attempts (Interrupted process "u") staleDisk as d) :
    d = staleDisk := by
  have : (∀ a ∈ as, a.head = some versionOne) → d = staleDisk := by
    refine attempts_mono (P := fun as d => (∀ a ∈ as, a.head = some versionOne) → d = staleDisk) (fun _ => rfl) ?_ h
    intro as a d₁ d₂ hP hstep ht
    have h1 := hP (fun a ha => ht a (List.mem_append_left _ ha))
    subst h1
    unfold Interrupted at hstep
    rw [ht a (by simp)] at hstep
    exact List.mem_singleton.1 hstep
  exact this has

/-- Fails also while the metadata is written: from then on every update raises and changes nothing, whatever the
server offers. -/
theorem C43_torn_violated :
    Interrupted (fun n : Nat => (.ok n : PyM Nat)) "u" ⟨some versionOne, some versionOne⟩ installedDisk tornDisk ∧
    ∀ (process : Nat → PyM Nat) (url : String) (head get : Option (Response Nat)),
      (updateSpec process url head get tornDisk).result = .error (.valueError "Expecting value") ∧
      (updateSpec process url head get tornDisk).states = [tornDisk] := by
  refine ⟨?_, fun process url head get => ⟨rfl, rfl⟩⟩
  show tornDisk ∈ _
  decide

/-- Fails without an interruption when the processing raises, say because the botocore data cannot be fetched:
the metadata has been saved. -/
theorem C43_error_violated :
    (updateSpec (fun _ : Nat => (.error (.other "URLError") : PyM Nat)) "u" (some versionOne) (some versionOne)
        installedDisk).final installedDisk = staleDisk ∧
      ¬ UpToDate (fun n : Nat => (.ok n : PyM Nat)) "u" versionOne 1 staleDisk := by
  refine ⟨by decide, ?_⟩
  rintro ⟨_, h⟩
  revert h
  decide

/-- Fails without an interruption when an answer carries no tag: the specification is replaced and the tag of
the previous one is kept. -/
theorem C43_untagged_violated :
    ∃ (as : List (Attempt Nat)) (d : Disk Nat),
      Attempts (Completed (fun n : Nat => (.ok n : PyM Nat)) "u") installedDisk as d ∧
      Faithful (fun r' => r' = versionOne ∨ ∃ a ∈ as, Answered a r') ∧
      ¬ UpToDate (fun n : Nat => (.ok n : PyM Nat)) "u" versionOne 1 d := by
  let two : Response Nat := ⟨none, some 2⟩
  refine ⟨[⟨some versionOne, some versionOne⟩] ++ [⟨some two, some two⟩], ⟨.whole [("etag", "v1"), ("url", "u")], .whole 2⟩,
    .more (.more (as := []) .start (d₂ := ⟨.whole [("etag", "v1"), ("url", "u")], .whole 1⟩) ⟨rfl, by decide⟩)
      ⟨rfl, by decide⟩, ?_, ?_⟩
  · have hone : ∀ r, (r = versionOne ∨ ∃ a ∈ ([⟨some versionOne, some versionOne⟩] ++ [⟨some two, some two⟩] :
        List (Attempt Nat)), Answered a r) → r = versionOne ∨ r = two := by
      rintro r (rfl | ⟨a, ha, hr⟩)
      · exact .inl rfl
      · simp only [List.cons_append, List.nil_append, List.mem_cons, List.not_mem_nil, or_false] at ha
        rcases ha with rfl | rfl
        · rcases hr with h | h <;> exact .inl (Option.some.inj h).symm
        · rcases hr with h | h <;> exact .inr (Option.some.inj h).symm
    intro r s hr hs e x y he he' hx hy
    rcases hone r hr with rfl | rfl
    · rcases hone s hs with rfl | rfl
      · rw [hx] at hy; exact Option.some.inj hy
      · cases he'
    · cases he
  · rintro ⟨_, h⟩
    revert h
    decide

/-- Fails when the patches change: they are applied only when the server has a new version. -/
theorem C43_patches_violated :
    ∃ d, Completed (fun n : Nat => (.ok n : PyM Nat)) "u" ⟨some versionOne, some versionOne⟩ installedDisk d ∧
      ¬ UpToDate (fun n : Nat => (.ok (n + 1) : PyM Nat)) "u" versionOne 2 d := by
  refine ⟨⟨.whole [("etag", "v1"), ("url", "u")], .whole 1⟩, ⟨rfl, by decide⟩, ?_⟩
  rintro ⟨_, h⟩
  revert h
  decide

/-! the hypotheses can be met -/

example : Attempts (CleanStep (fun n : Nat => (.ok n : PyM Nat)) "u") installedDisk [⟨some versionOne, some versionOne⟩]
    ⟨.whole [("etag", "v1"), ("url", "u")], .whole 1⟩ :=
  .more (as := []) .start (.inl ⟨rfl, by decide⟩)

example : UpToDate (fun n : Nat => (.ok n : PyM Nat)) "u" versionOne 1 installedDisk := ⟨rfl, rfl⟩

example : ∀ a ∈ [(⟨some versionOne, some versionOne⟩ : Attempt Nat)], ∀ r', Answered a r' → ∀ e, r'.etag = some e →
    (⟨some "v2", some 2⟩ : Response Nat).etag ≠ some e := by
  intro a ha r' hr e he
  rw [answered_one a ha r' hr] at he
  cases he
  decide

end CfnLint
