import Verif.Model.UpdatePool
import Verif.Spec.Update
import Mathlib.Algebra.BigOperators.Group.Finset.Basic
import Mathlib.Algebra.Order.BigOperators.Group.Finset
import Mathlib.Data.Fintype.Basic
/-
Property C146: the updates of the regions by a pool of processes do not disturb one another, unless they are the first.
-/
namespace CfnLint

open Spec

variable {β σ ι : Type} [DecidableEq ι]

/-- the files of a region -/
def Spec.filesOf (digest : String → String) (j : Job β) (d : SharedDisk σ) : Disk σ := ⟨d.metafile (digest j.url), d.spec j.region⟩

/-- the jobs have different regions and different files of metadata -/
structure Spec.Separate (digest : String → String) (jobs : ι → Job β) : Prop where
  regions : ∀ i k, i ≠ k → (jobs i).region ≠ (jobs k).region
  files : ∀ i k, i ≠ k → digest (jobs i).url ≠ digest (jobs k).url

/-- what is left of an update -/
def restOf (process : β → PyM σ) (j : Job β) (d : Disk σ) : Pc β σ → Progress σ
  | .start => updateSpec process j.url j.head j.get d
  | .fetch => fetchSpec process j.url j.get d
  | .save m b | .mkdir m b | .openMeta m b =>
    ⟨d :: { d with metafile := .torn } :: (writeSpec process b { d with metafile := .whole m }).states, (writeSpec process b { d with metafile := .whole m }).result⟩
  | .writeMeta m b =>
    ⟨d :: (writeSpec process b { d with metafile := .whole m }).states, (writeSpec process b { d with metafile := .whole m }).result⟩
  | .read b => writeSpec process b d
  | .openSpec s => ⟨[d, { d with spec := .torn }, { d with spec := .whole s }], .ok ()⟩
  | .writeSpec s => ⟨[d, { d with spec := .whole s }], .ok ()⟩
  | .finished r => ⟨[d], r⟩

/-- nothing was written yet -/
def Early : Pc β σ → Prop
  | .start | .fetch | .save _ _ | .mkdir _ _ | .openMeta _ _ => True
  | _ => False

/-- the steps that are left at most -/
def weight : Pc β σ → Nat
  | .start => 9 | .fetch => 8 | .save _ _ => 7 | .mkdir _ _ => 6 | .openMeta _ _ => 5 | .writeMeta _ _ => 4 | .read _ => 3 | .openSpec _ => 2
  | .writeSpec _ => 1 | .finished _ => 0

theorem restOf_head (process : β → PyM σ) (j : Job β) (d : Disk σ) (pc : Pc β σ) : d ∈ (restOf process j d pc).states := by
  have hw : ∀ b (d : Disk σ), d ∈ (writeSpec process b d).states := by
    intro b d
    unfold writeSpec
    repeat' split
    all_goals exact List.mem_cons_self
  have hf : d ∈ (fetchSpec process j.url j.get d).states := by
    unfold fetchSpec
    repeat' split
    all_goals first | exact hw _ _ | exact List.mem_cons_self
  cases pc <;> simp only [restOf]
  case start =>
    unfold updateSpec
    repeat' split
    all_goals first | exact hf | exact List.mem_cons_self
  case fetch => exact hf
  case read => exact hw _ _
  all_goals exact List.mem_cons_self

variable {digest : String → String} {process : String → β → PyM σ}

theorem setFile_same {α : Type} (f : String → α) (k : String) (a : α) : setFile f k a k = a := if_pos rfl

theorem setFile_other {α : Type} (f : String → α) {k k' : String} (a : α) (h : k' ≠ k) : setFile f k a k' = f k' := if_neg h

/-- a step of the process of a region is a step of the update, unless the directory of the metadata was made in between -/
theorem step_own {j : Job β} {d d' : SharedDisk σ} {pc pc' : Pc β σ} (h : jobStep digest process j d pc = some (pc', d')) :
    ((restOf (process j.region) j (filesOf digest j d') pc').states <:+ (restOf (process j.region) j (filesOf digest j d) pc).states ∧
      (restOf (process j.region) j (filesOf digest j d') pc').result = (restOf (process j.region) j (filesOf digest j d) pc).result) ∨
    (pc' = .finished (.error (.other "FileExistsError")) ∧ d' = d ∧ d.dir = true ∧ ∃ m b, pc = .mkdir m b) := by
  cases pc with
  | start =>
    left
    simp only [jobStep] at h
    simp only [restOf, updateSpec, filesOf]
    cases hn : urlHasNewer (d.metafile (digest j.url)) j.head with
    | error e => rw [hn] at h; cases h; exact ⟨List.suffix_rfl, rfl⟩
    | ok b =>
      cases b with
      | false => rw [hn] at h; cases h; exact ⟨List.suffix_rfl, rfl⟩
      | true => rw [hn] at h; cases h; exact ⟨List.suffix_rfl, rfl⟩
  | fetch =>
    left
    simp only [jobStep] at h
    simp only [restOf, fetchSpec, filesOf]
    cases hg : j.get with
    | none => rw [hg] at h; cases h; exact ⟨List.suffix_rfl, rfl⟩
    | some r =>
      rw [hg] at h
      simp only at h ⊢
      cases he : r.etag with
      | none => rw [he] at h; cases h; exact ⟨List.suffix_rfl, rfl⟩
      | some e =>
        rw [he] at h
        simp only at h ⊢
        by_cases hempty : e = ""
        · rw [if_pos hempty] at h; simp only [if_pos hempty]; cases h; exact ⟨List.suffix_rfl, rfl⟩
        · rw [if_neg hempty] at h
          simp only [if_neg hempty]
          cases hl : loadMetadata (d.metafile (digest j.url)) with
          | error er => rw [hl] at h; cases h; exact ⟨List.suffix_rfl, rfl⟩
          | ok md => rw [hl] at h; cases h; exact ⟨List.suffix_rfl, rfl⟩
  | save m b =>
    left
    simp only [jobStep] at h
    split at h <;> cases h <;> exact ⟨List.suffix_rfl, rfl⟩
  | mkdir m b =>
    simp only [jobStep] at h
    split at h <;> cases h
    · rename_i hd
      exact .inr ⟨rfl, rfl, hd, m, b, rfl⟩
    · exact .inl ⟨List.suffix_rfl, rfl⟩
  | openMeta m b =>
    left
    cases h
    simp only [restOf, filesOf, setFile_same]
    exact ⟨List.suffix_cons _ _, trivial⟩
  | writeMeta m b =>
    left
    cases h
    simp only [restOf, filesOf, setFile_same]
    exact ⟨List.suffix_cons _ _, trivial⟩
  | read b =>
    left
    cases b with
    | none => cases h; exact ⟨List.suffix_rfl, rfl⟩
    | some b =>
      simp only [jobStep] at h
      simp only [restOf, writeSpec]
      cases hp : process j.region b with
      | error e => rw [hp] at h; cases h; exact ⟨List.suffix_rfl, rfl⟩
      | ok s => rw [hp] at h; cases h; exact ⟨List.suffix_rfl, rfl⟩
  | openSpec s =>
    left
    cases h
    simp only [restOf, filesOf, setFile_same]
    exact ⟨List.suffix_cons _ _, trivial⟩
  | writeSpec s =>
    left
    cases h
    simp only [restOf, filesOf, setFile_same]
    exact ⟨List.suffix_cons _ _, trivial⟩
  | finished r => cases h

/-- a step of a process leaves all other files as they are -/
theorem step_other {j : Job β} {d d' : SharedDisk σ} {pc pc' : Pc β σ} (h : jobStep digest process j d pc = some (pc', d')) :
    (∀ f, f ≠ digest j.url → d'.metafile f = d.metafile f) ∧ (∀ r, r ≠ j.region → d'.spec r = d.spec r) ∧ (d.dir = true → d'.dir = true) := by
  cases pc <;> simp only [jobStep] at h
  case openMeta => cases h; exact ⟨fun f hf => setFile_other _ _ hf, fun _ _ => rfl, id⟩
  case writeMeta => cases h; exact ⟨fun f hf => setFile_other _ _ hf, fun _ _ => rfl, id⟩
  case openSpec => cases h; exact ⟨fun _ _ => rfl, fun r hr => setFile_other _ _ hr, id⟩
  case writeSpec => cases h; exact ⟨fun _ _ => rfl, fun r hr => setFile_other _ _ hr, id⟩
  case mkdir => split at h <;> cases h <;> exact ⟨fun _ _ => rfl, fun _ _ => rfl, fun _ => by first | rfl | assumption⟩
  case read b =>
    cases b <;> simp only at h
    · cases h; exact ⟨fun _ _ => rfl, fun _ _ => rfl, id⟩
    · split at h <;> cases h <;> exact ⟨fun _ _ => rfl, fun _ _ => rfl, id⟩
  all_goals (repeat' split at h) <;> cases h <;> exact ⟨fun _ _ => rfl, fun _ _ => rfl, id⟩

theorem step_weight {j : Job β} {d d' : SharedDisk σ} {pc pc' : Pc β σ} (h : jobStep digest process j d pc = some (pc', d')) : weight pc' < weight pc := by
  cases pc <;> simp only [jobStep] at h
  case read b =>
    cases b <;> simp only at h
    · cases h; simp [weight]
    · split at h <;> cases h <;> simp [weight]
  all_goals (repeat' split at h) <;> cases h <;> simp [weight]

theorem step_early {j : Job β} {d d' : SharedDisk σ} {pc pc' : Pc β σ} (h : jobStep digest process j d pc = some (pc', d')) (he : Early pc') :
    Early pc ∧ filesOf digest j d' = filesOf digest j d := by
  cases pc <;> simp only [jobStep] at h
  case read b =>
    cases b <;> simp only at h
    · cases h; cases he
    · split at h <;> cases h <;> cases he
  all_goals (repeat' split at h) <;> cases h <;> first | exact ⟨trivial, rfl⟩ | exact absurd he id

theorem step_mkdir {j : Job β} {d d' : SharedDisk σ} {pc pc' : Pc β σ} (h : jobStep digest process j d pc = some (pc', d')) (hd : d.dir = true) (m : Metadata)
    (b : Option β) : pc' ≠ .mkdir m b := by
  rintro rfl
  cases pc <;> simp only [jobStep] at h
  case read b' =>
    cases b' <;> simp only at h
    · cases h
    · split at h <;> cases h
  case save => rw [if_pos hd] at h; cases h
  all_goals (repeat' split at h) <;> cases h

/-- what holds of a process of the pool: it is in the middle of its own update, or it stumbled over the directory -/
structure PoolInv (digest : String → String) (process : String → β → PyM σ) (j : Job β) (d₀ d : SharedDisk σ) (pc : Pc β σ) : Prop where
  early : Early pc → filesOf digest j d = filesOf digest j d₀
  dir : d₀.dir = true → d.dir = true ∧ ∀ m b, pc ≠ .mkdir m b
  own : ((restOf (process j.region) j (filesOf digest j d) pc).states <:+ (updateSpec (process j.region) j.url j.head j.get (filesOf digest j d₀)).states ∧
      (restOf (process j.region) j (filesOf digest j d) pc).result = (updateSpec (process j.region) j.url j.head j.get (filesOf digest j d₀)).result) ∨
    (pc = .finished (.error (.other "FileExistsError")) ∧ filesOf digest j d = filesOf digest j d₀ ∧ d₀.dir = false)

theorem pool_inv {jobs : ι → Job β} {d₀ : SharedDisk σ} (hs : Separate digest jobs) {n : Nat} {c : Pool ι β σ} (h : PoolRun digest process jobs d₀ n c) (i : ι) :
    PoolInv digest process (jobs i) d₀ c.disk (c.pcs i) := by
  induction h with
  | start => exact ⟨fun _ => rfl, fun h => ⟨h, fun _ _ => nofun⟩, .inl ⟨List.suffix_rfl, rfl⟩⟩
  | @step n c c' _ hstep ih =>
    obtain ⟨k, hk⟩ := hstep
    rename_i pc d
    have ho := step_other hk
    by_cases hik : i = k
    · subst hik
      simp only [if_pos]
      refine ⟨fun he => ?_, fun hd => ?_, ?_⟩
      · obtain ⟨h1, h2⟩ := step_early hk he
        rw [h2]; exact ih.early h1
      · have hd' := (ih.dir hd).1
        exact ⟨ho.2.2 hd', fun m b => step_mkdir hk hd' m b⟩
      · rcases ih.own with ⟨h1, h2⟩ | ⟨h1, _, _⟩
        · rcases step_own hk with ⟨h3, h4⟩ | ⟨h3, h4, _, m, b, h6⟩
          · exact .inl ⟨h3.trans h1, h4.trans h2⟩
          · refine .inr ⟨h3, ?_, ?_⟩
            · rw [h4]; exact ih.early (by rw [h6]; trivial)
            · cases hd : d₀.dir with
              | false => rfl
              | true => exact absurd h6 ((ih.dir hd).2 m b)
        · rw [h1] at hk; cases hk
    · simp only [if_neg hik]
      have hf : filesOf digest (jobs i) d = filesOf digest (jobs i) c.disk := by
        simp only [filesOf, ho.1 _ (hs.files i k hik), ho.2.1 _ (hs.regions i k hik)]
      refine ⟨fun he => hf.trans (ih.early he), fun hd => ⟨ho.2.2 (ih.dir hd).1, (ih.dir hd).2⟩, ?_⟩
      rw [hf]
      exact ih.own

theorem final_of_suffix {p : Progress σ} {d d₀ : Disk σ} (h : [d] <:+ p.states) : p.final d₀ = d := by
  obtain ⟨t, ht⟩ := h
  simp [Progress.final, ← ht]

/-- the update of each region is one that was interrupted, or not, as if it were the only one; at its end it has the result and the files that it
would have had by itself -/
def Spec.Isolated (digest : String → String) (process : String → β → PyM σ) (j : Job β) (d₀ d : SharedDisk σ) (pc : Pc β σ) : Prop :=
  Interrupted (process j.region) j.url ⟨j.head, j.get⟩ (filesOf digest j d₀) (filesOf digest j d) ∧
  ∀ r, pc = .finished r →
    r = (updateSpec (process j.region) j.url j.head j.get (filesOf digest j d₀)).result ∧
    filesOf digest j d = (updateSpec (process j.region) j.url j.head j.get (filesOf digest j d₀)).final (filesOf digest j d₀)

theorem isolated_of_inv {j : Job β} {d₀ d : SharedDisk σ} {pc : Pc β σ}
    (h : (restOf (process j.region) j (filesOf digest j d) pc).states <:+ (updateSpec (process j.region) j.url j.head j.get (filesOf digest j d₀)).states ∧
      (restOf (process j.region) j (filesOf digest j d) pc).result = (updateSpec (process j.region) j.url j.head j.get (filesOf digest j d₀)).result) :
    Isolated digest process j d₀ d pc := by
  refine ⟨h.1.subset (restOf_head _ _ _ _), ?_⟩
  rintro r rfl
  exact ⟨h.2, (final_of_suffix h.1).symm⟩

/-- C146: in whatever order the processes of the pool take their steps, the update of a region is as if it were the only one, or it ends with
FileExistsError before anything of the region is written, because another process made the directory in between. -/
theorem C146_any {jobs : ι → Job β} {d₀ : SharedDisk σ} {n : Nat} {c : Pool ι β σ} (hs : Separate digest jobs) (h : PoolRun digest process jobs d₀ n c) (i : ι) :
    Isolated digest process (jobs i) d₀ c.disk (c.pcs i) ∨
    (d₀.dir = false ∧ c.pcs i = .finished (.error (.other "FileExistsError")) ∧ filesOf digest (jobs i) c.disk = filesOf digest (jobs i) d₀) := by
  rcases (pool_inv hs h i).own with h1 | ⟨h1, h2, h3⟩
  · exact .inl (isolated_of_inv h1)
  · exact .inr ⟨h3, h1, h2⟩

/-- C146, the full statement: the updates of the regions do not disturb one another -/
def C146_statement : Prop :=
  ∀ (β σ ι : Type) [DecidableEq ι] (digest : String → String) (process : String → β → PyM σ) (jobs : ι → Job β) (d₀ : SharedDisk σ) (n : Nat) (c : Pool ι β σ),
    Separate digest jobs → PoolRun digest process jobs d₀ n c → ∀ i, Isolated digest process (jobs i) d₀ c.disk (c.pcs i)

/-- C146 where the directory of the metadata is there at the start. -/
theorem C146_isolated_partial {jobs : ι → Job β} {d₀ : SharedDisk σ} {n : Nat} {c : Pool ι β σ} (hs : Separate digest jobs) (hd : d₀.dir = true)
    (h : PoolRun digest process jobs d₀ n c) (i : ι) : Isolated digest process (jobs i) d₀ c.disk (c.pcs i) := by
  rcases C146_any hs h i with h1 | ⟨h1, _⟩
  · exact h1
  · rw [hd] at h1; cases h1

/-- C146: the files that belong to no region of the update are as they were. -/
theorem C146_others {jobs : ι → Job β} {d₀ : SharedDisk σ} {n : Nat} {c : Pool ι β σ} (h : PoolRun digest process jobs d₀ n c) :
    (∀ f, (∀ i, f ≠ digest (jobs i).url) → c.disk.metafile f = d₀.metafile f) ∧ (∀ r, (∀ i, r ≠ (jobs i).region) → c.disk.spec r = d₀.spec r) := by
  induction h with
  | start => exact ⟨fun _ _ => rfl, fun _ _ => rfl⟩
  | step _ hstep ih =>
    obtain ⟨k, hk⟩ := hstep
    have ho := step_other hk
    exact ⟨fun f hf => (ho.1 f (hf k)).trans (ih.1 f hf), fun r hr => (ho.2.1 r (hr k)).trans (ih.2 r hr)⟩

/-- C146: where the directory is there at the start, the order of the steps makes no difference to what is on the disk when all are done, nor to the
results. -/
theorem C146_same {jobs : ι → Job β} {d₀ : SharedDisk σ} {n n' : Nat} {c c' : Pool ι β σ} (hs : Separate digest jobs) (hd : d₀.dir = true)
    (h : PoolRun digest process jobs d₀ n c) (h' : PoolRun digest process jobs d₀ n' c') (hf : ∀ i, ∃ r, c.pcs i = .finished r)
    (hf' : ∀ i, ∃ r, c'.pcs i = .finished r) : c = c' := by
  have hfiles : ∀ i, filesOf digest (jobs i) c.disk = filesOf digest (jobs i) c'.disk ∧ c.pcs i = c'.pcs i := by
    intro i
    obtain ⟨r, hr⟩ := hf i
    obtain ⟨r', hr'⟩ := hf' i
    have h1 := (C146_isolated_partial hs hd h i).2 r hr
    have h2 := (C146_isolated_partial hs hd h' i).2 r' hr'
    exact ⟨h1.2.trans h2.2.symm, by rw [hr, hr', h1.1, h2.1]⟩
  have hdir : c.disk.dir = c'.disk.dir := by
    have hall : ∀ {n} {c : Pool ι β σ}, PoolRun digest process jobs d₀ n c → c.disk.dir = true := by
      intro n c h
      induction h with
      | start => exact hd
      | step _ hstep ih => obtain ⟨k, hk⟩ := hstep; exact (step_other hk).2.2 ih
    rw [hall h, hall h']
  have hm : c.disk.metafile = c'.disk.metafile := by
    funext f
    by_cases hx : ∃ i, f = digest (jobs i).url
    · obtain ⟨i, rfl⟩ := hx
      exact congrArg Disk.metafile (hfiles i).1
    · have hx' : ∀ i, f ≠ digest (jobs i).url := fun i e => hx ⟨i, e⟩
      rw [(C146_others h).1 f hx', (C146_others h').1 f hx']
  have hsp : c.disk.spec = c'.disk.spec := by
    funext f
    by_cases hx : ∃ i, f = (jobs i).region
    · obtain ⟨i, rfl⟩ := hx
      exact congrArg Disk.spec (hfiles i).1
    · have hx' : ∀ i, f ≠ (jobs i).region := fun i e => hx ⟨i, e⟩
      rw [(C146_others h).2 f hx', (C146_others h').2 f hx']
  obtain ⟨p, ⟨a, b, e⟩⟩ := c
  obtain ⟨p', ⟨a', b', e'⟩⟩ := c'
  simp only at hdir hm hsp
  have hp : p = p' := funext fun i => (hfiles i).2
  subst hdir hm hsp hp
  rfl

/-- C146: the pool comes to an end: it takes at most nine steps for a region, and goes on as long as one of the updates is not at its end. -/
theorem C146_ends [Fintype ι] {jobs : ι → Job β} {d₀ : SharedDisk σ} {n : Nat} {c : Pool ι β σ} (h : PoolRun digest process jobs d₀ n c) :
    n ≤ 9 * Fintype.card ι ∧ ((∃ i, ∀ r, c.pcs i ≠ .finished r) ↔ ∃ c', PoolStep digest process jobs c c') := by
  constructor
  · have hsum : n + ∑ i, weight (c.pcs i) ≤ 9 * Fintype.card ι := by
      induction h with
      | start => simp [weight, Nat.mul_comm]
      | @step n c c' _ hstep ih =>
        obtain ⟨k, hk⟩ := hstep
        rename_i pc d
        have hlt : ∑ i, weight (if i = k then pc else c.pcs i) < ∑ i, weight (c.pcs i) := by
          apply Finset.sum_lt_sum
          · intro i _
            by_cases hik : i = k
            · subst hik; rw [if_pos rfl]; exact Nat.le_of_lt (step_weight hk)
            · rw [if_neg hik]
          · exact ⟨k, Finset.mem_univ k, by rw [if_pos rfl]; exact step_weight hk⟩
        simp only
        omega
    omega
  · constructor
    · rintro ⟨i, hi⟩
      cases hj : jobStep digest process (jobs i) c.disk (c.pcs i) with
      | some x => exact ⟨_, PoolStep.move i hj⟩
      | none =>
        exfalso
        cases hpc : c.pcs i with
        | finished r => exact hi r hpc
        | read b =>
          rw [hpc] at hj
          cases b <;> simp only [jobStep] at hj
          · cases hj
          · split at hj <;> cases hj
        | _ => rw [hpc] at hj; simp only [jobStep] at hj; (repeat' split at hj) <;> cases hj
    · rintro ⟨c', hstep⟩
      obtain ⟨k, hk⟩ := hstep
      refine ⟨k, fun r hr => ?_⟩
      rw [hr] at hk
      cases hk

/-- the updates of `update_resource_specs`, with the answers to the requests -/
def specJobs (head get : String → Option (Response β)) (i : Fin 25) : Job β :=
  let p := specRegions[i.val]'i.isLt
  ⟨p.1, p.2, head p.1, get p.1⟩

/-- C146: no two regions of the table have the same name or the same URL; the updates are apart if the digest tells the URLs apart. -/
theorem C146_regions (head get : String → Option (Response β)) (hd : ∀ u v, digest u = digest v → u = v) : Separate digest (specJobs head get) := by
  have hn : (specRegions.map Prod.fst).Nodup ∧ (specRegions.map Prod.snd).Nodup := by decide +kernel
  have key : ∀ {f : String × String → String}, (specRegions.map f).Nodup → ∀ i k : Fin 25, i ≠ k → f (specRegions[i.val]'i.isLt) ≠ f (specRegions[k.val]'k.isLt) := by
    intro f hf i k hik he
    have h1 : i.val < (specRegions.map f).length := by rw [List.length_map]; exact i.isLt
    have h2 : k.val < (specRegions.map f).length := by rw [List.length_map]; exact k.isLt
    have := (List.Nodup.getElem_inj_iff hf (hi := h1) (hj := h2)).1 (by rw [List.getElem_map, List.getElem_map]; exact he)
    exact hik (Fin.ext this)
  exact ⟨fun i k hik => key hn.1 i k hik, fun i k hik he => key hn.2 i k hik (hd _ _ he)⟩

/-- two regions with something new -/
def poolJobs (b : Bool) : Job Nat :=
  if b then ⟨"us-east-1", "https://a", some ⟨some "x", some 1⟩, some ⟨some "x", some 1⟩⟩
  else ⟨"eu-west-1", "https://b", some ⟨some "y", some 2⟩, some ⟨some "y", some 2⟩⟩

/-- a disk on which nothing was downloaded -/
def poolDisk (dir : Bool) : SharedDisk Nat := ⟨dir, fun _ => .missing, fun _ => .whole 0⟩

theorem poolJobs_separate : Separate id poolJobs := ⟨by decide, by decide⟩

/-- the processes take their steps in a given order -/
def schedule (digest : String → String) (process : String → β → PyM σ) (jobs : ι → Job β) : Pool ι β σ → List ι → Option (Pool ι β σ)
  | c, [] => some c
  | c, i :: is =>
    match jobStep digest process (jobs i) c.disk (c.pcs i) with
    | none => none
    | some (pc, d) => schedule digest process jobs ⟨fun k => if k = i then pc else c.pcs k, d⟩ is

theorem schedule_run {jobs : ι → Job β} {d₀ : SharedDisk σ} {is : List ι} {n : Nat} {c c' : Pool ι β σ} (hr : PoolRun digest process jobs d₀ n c)
    (h : schedule digest process jobs c is = some c') : PoolRun digest process jobs d₀ (n + is.length) c' := by
  induction is generalizing n c with
  | nil => cases h; exact hr
  | cons i is ih =>
    simp only [schedule] at h
    split at h
    · cases h
    · rename_i pc d hj
      have := ih (PoolRun.step hr (PoolStep.move i hj)) h
      rwa [List.length_cons, Nat.add_comm is.length 1, ← Nat.add_assoc]

/-- C146 fails where the directory is not there at the start: both processes find that it is missing, and the one that makes it second fails,
though by itself it would have brought its region up to date. -/
theorem C146_mkdir_violated : ¬ C146_statement := by
  intro h
  have hsome : (schedule id (fun _ b => .ok b) poolJobs ⟨fun _ => .start, poolDisk false⟩ [true, true, true, false, false, false, true, false]).isSome = true := by rfl
  obtain ⟨c, hc⟩ := Option.isSome_iff_exists.1 hsome
  have hr := schedule_run (PoolRun.start) hc
  have h1 := (h Nat Nat Bool id (fun _ b => .ok b) poolJobs (poolDisk false) _ c poolJobs_separate hr false).2
  have hpc : c.pcs false = .finished (.error (.other "FileExistsError")) := by cases hc; rfl
  exact absurd (h1 _ hpc).1 (by decide)

/-- the hypotheses of C146 are met by two regions that are updated in turns -/
example : Separate id poolJobs ∧ (poolDisk true).dir = true ∧
    ∃ c, PoolRun id (fun _ b => .ok b) poolJobs (poolDisk true) 16 c ∧ (∀ i, ∃ r, c.pcs i = .finished r) ∧ c.disk.spec "us-east-1" = .whole 1 ∧
      c.disk.spec "eu-west-1" = .whole 2 := by
  refine ⟨poolJobs_separate, rfl, ?_⟩
  have hsome : (schedule id (fun _ b => .ok b) poolJobs ⟨fun _ => .start, poolDisk true⟩
      [true, false, true, false, true, false, true, false, true, false, true, false, true, false, true, false]).isSome = true := by rfl
  obtain ⟨c, hc⟩ := Option.isSome_iff_exists.1 hsome
  refine ⟨c, schedule_run (PoolRun.start) hc, ?_, ?_, ?_⟩
  · intro i; cases hc; cases i <;> exact ⟨_, rfl⟩
  · cases hc; rfl
  · cases hc; rfl

end CfnLint
