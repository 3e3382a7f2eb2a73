import Verif.Props.UpdatePool
import Verif.Props.Update
/-
Property C148: updates of all regions one after the other. Each is made by a pool of processes and stopped anywhere.
-/
namespace CfnLint

open Spec

variable {β σ ι : Type} [DecidableEq ι] {digest : String → String} {process : String → β → PyM σ}

/-- the jobs of one update: the names and URLs of the regions, and the answers to the requests -/
def Spec.jobsOf (sites : ι → String × String) (a : ι → Attempt β) (i : ι) : Job β := ⟨(sites i).1, (sites i).2, (a i).head, (a i).get⟩

/-- the files of a region -/
def Spec.filesAt (digest : String → String) (site : String × String) (d : SharedDisk σ) : Disk σ := ⟨d.metafile (digest site.2), d.spec site.1⟩

/-- different regions, different files of metadata -/
def Spec.Apart (digest : String → String) (sites : ι → String × String) : Prop :=
  ∀ i k, i ≠ k → (sites i).1 ≠ (sites k).1 ∧ digest (sites i).2 ≠ digest (sites k).2

/-- updates of all regions one after the other: each begins with the disk that the one before left, and is where `P` holds when it stops -/
inductive Spec.PoolRuns (digest : String → String) (process : String → β → PyM σ) (sites : ι → String × String) (P : Pool ι β σ → Prop) (d₀ : SharedDisk σ) :
    List (ι → Attempt β) → SharedDisk σ → Prop where
  | start : PoolRuns digest process sites P d₀ [] d₀
  | more {as : List (ι → Attempt β)} {d : SharedDisk σ} {a : ι → Attempt β} {n : Nat} {c : Pool ι β σ} : PoolRuns digest process sites P d₀ as d →
      PoolRun digest process (jobsOf sites a) d n c → P c → PoolRuns digest process sites P d₀ (as ++ [a]) c.disk

omit [DecidableEq ι] in
theorem separate_of_apart {sites : ι → String × String} (h : Apart digest sites) (a : ι → Attempt β) : Separate digest (jobsOf sites a) :=
  ⟨fun i k hik => (h i k hik).1, fun i k hik => (h i k hik).2⟩

theorem interrupted_self (process : β → PyM σ) (url : String) (a : Attempt β) (d : Disk σ) : Interrupted process url a d d :=
  restOf_head process ⟨"", url, a.head, a.get⟩ d .start

/-- C148: for each region, any number of updates of all regions, stopped anywhere and in whatever order the processes took their steps, is a
sequence of attempts at the update of that region alone. The directory need not be there. -/
theorem C148_attempts {sites : ι → String × String} {P : Pool ι β σ → Prop} {d₀ d : SharedDisk σ} {as : List (ι → Attempt β)} (hs : Apart digest sites)
    (h : PoolRuns digest process sites P d₀ as d) (i : ι) :
    Attempts (Interrupted (process (sites i).1) (sites i).2) (filesAt digest (sites i) d₀) (as.map (· i)) (filesAt digest (sites i) d) := by
  induction h with
  | start => exact .start
  | @more as d a n c _ hr _ ih =>
    rw [List.map_append]
    refine .more ih ?_
    rcases C146_any (separate_of_apart hs a) hr i with h1 | ⟨_, _, h2⟩
    · exact h1.1
    · have h2' : filesAt digest (sites i) c.disk = filesAt digest (sites i) d := h2
      rw [h2']
      exact interrupted_self _ _ _ _

theorem pool_dir {jobs : ι → Job β} {d₀ : SharedDisk σ} {n : Nat} {c : Pool ι β σ} (h : PoolRun digest process jobs d₀ n c) (hd : d₀.dir = true) :
    c.disk.dir = true := by
  induction h with
  | start => exact hd
  | step _ hstep ih =>
    obtain ⟨k, hk⟩ := hstep
    exact (step_other hk).2.2 ih

/-- C148: after updates that were stopped anywhere, a version that the server never had before is brought in by the next update of all regions that
runs to its end, if the directory is there and the file of the metadata is whole. -/
theorem C148_newVersion {sites : ι → String × String} {P : Pool ι β σ → Prop} {d₀ d : SharedDisk σ} {as : List (ι → Attempt β)} {i : ι} {r : Response β} {b : β}
    {s : σ} (hs : Apart digest sites) (h0 : Installed (filesAt digest (sites i) d₀)) (h : PoolRuns digest process sites P d₀ as d)
    (hm : d.metafile (digest (sites i).2) ≠ .torn) (hb : r.body = some b) (hp : process (sites i).1 b = .ok s)
    (hnew : ∀ a ∈ as, ∀ r', Answered (a i) r' → ∀ e, r'.etag = some e → r.etag ≠ some e)
    (hdir : d.dir = true) {a : ι → Attempt β} {n : Nat} {c : Pool ι β σ} (ha : a i = ⟨some r, some r⟩)
    (hr : PoolRun digest process (jobsOf sites a) d n c) {x : PyM Unit} (hx : c.pcs i = .finished x) :
    x = .ok () ∧ c.disk.spec (sites i).1 = .whole s := by
  have hu : UpToDate (process (sites i).1) (sites i).2 r s (filesAt digest (sites i) d) := by
    refine C43_new_version_partial h0 (C148_attempts hs h i) hm hb hp ?_
    intro a' ha'
    obtain ⟨a'', ha'', rfl⟩ := List.mem_map.1 ha'
    exact hnew a'' ha''
  have hi := (C146_isolated_partial (separate_of_apart hs a) hdir hr i).2 x hx
  simp only [jobsOf, ha] at hi
  refine ⟨hi.1.trans hu.1, ?_⟩
  have h2 : (filesAt digest (sites i) c.disk).spec = .whole s := by
    rw [show filesAt digest (sites i) c.disk = _ from hi.2]
    exact hu.2
  exact h2

theorem loadMetadata_exists {m : File Metadata} : loadMetadata m ≠ .error (.other "FileExistsError") := by
  cases m <;> simp [loadMetadata]

theorem urlHasNewer_exists {m : File Metadata} {head : Option (Response β)} : urlHasNewer m head ≠ .error (.other "FileExistsError") := by
  unfold urlHasNewer
  intro h
  cases hm : loadMetadata m with
  | error e => rw [hm] at h; cases h; exact loadMetadata_exists hm
  | ok md =>
    rw [hm] at h
    dsimp only at h
    split at h
    · cases h
    · split at h
      · simp at h
      · split at h <;> cases h

theorem writeSpec_result {process : β → PyM σ} (h : ∀ b, process b ≠ .error (.other "FileExistsError")) (b : Option β) (d : Disk σ) :
    (CfnLint.writeSpec process b d).result ≠ .error (.other "FileExistsError") := by
  unfold CfnLint.writeSpec
  cases b with
  | none => simp
  | some b =>
    dsimp only
    cases hb : process b with
    | ok s => simp
    | error e =>
      dsimp only
      intro he
      cases he
      exact h b hb

theorem updateSpec_result {process : β → PyM σ} (h : ∀ b, process b ≠ .error (.other "FileExistsError")) (url : String) (head get : Option (Response β))
    (d : Disk σ) : (updateSpec process url head get d).result ≠ .error (.other "FileExistsError") := by
  unfold updateSpec
  cases hu : urlHasNewer d.metafile head with
  | error e =>
    dsimp only
    intro he
    cases he
    exact urlHasNewer_exists hu
  | ok v =>
    cases v with
    | false => simp
    | true =>
      dsimp only
      unfold fetchSpec
      cases get with
      | none => simp
      | some r =>
        dsimp only
        split
        · exact writeSpec_result h _ _
        · split
          · exact writeSpec_result h _ _
          · split
            · rename_i er he
              dsimp only
              intro hx
              cases hx
              exact loadMetadata_exists he
            · exact writeSpec_result h _ _

/-- the process of a region ended well, or because another made the directory before it -/
def Spec.EndedOr (i : ι) (c : Pool ι β σ) : Prop := c.pcs i = .finished (.ok ()) ∨ c.pcs i = .finished (.error (.other "FileExistsError"))

/-- C148: the failure of a process that finds the directory made by another is mended: where all updates until then ended well or in that way, the
next one that runs to its end brings in the version of the server. -/
theorem C148_mended {sites : ι → String × String} {d₀ d : SharedDisk σ} {as : List (ι → Attempt β)} {i : ι} {r : Response β} {b : β}
    {s : σ} (hs : Apart digest sites) (h0 : Installed (filesAt digest (sites i) d₀)) (h : PoolRuns digest process sites (EndedOr i) d₀ as d)
    (hpr : ∀ b, process (sites i).1 b ≠ .error (.other "FileExistsError"))
    (htag : ∀ a ∈ as, ∀ r, (a i).get = some r → ∃ e, r.etag = some e ∧ e ≠ "")
    (hf : Faithful (fun r' => r' = r ∨ ∃ a ∈ as, Answered (a i) r')) (hb : r.body = some b) (hp : process (sites i).1 b = .ok s)
    (hdir : d.dir = true) {a : ι → Attempt β} {n : Nat} {c : Pool ι β σ} (ha : a i = ⟨some r, some r⟩)
    (hr : PoolRun digest process (jobsOf sites a) d n c) {x : PyM Unit} (hx : c.pcs i = .finished x) :
    x = .ok () ∧ c.disk.spec (sites i).1 = .whole s := by
  have hat : Attempts (CleanStep (process (sites i).1) (sites i).2) (filesAt digest (sites i) d₀) (as.map (· i)) (filesAt digest (sites i) d) := by
    clear htag hf hr hdir
    induction h with
    | start => exact .start
    | @more as d a n c _ hr hend ih =>
      rw [List.map_append]
      refine .more ih ?_
      rcases C146_any (separate_of_apart hs a) hr i with h1 | ⟨_, _, h2⟩
      · rcases hend with he | he
        · obtain ⟨h3, h4⟩ := h1.2 _ he
          exact .inl ⟨h3.symm, h4⟩
        · exact absurd (h1.2 _ he).1.symm (updateSpec_result hpr _ _ _ _)
      · exact .inr h2
  have hu : UpToDate (process (sites i).1) (sites i).2 r s (filesAt digest (sites i) d) := by
    refine C43_uninterrupted_partial h0 hat ?_ ?_ hb hp
    · intro a' ha'
      obtain ⟨a'', ha'', rfl⟩ := List.mem_map.1 ha'
      exact htag a'' ha''
    · intro r1 r2 h1 h2
      refine hf r1 r2 (h1.imp_right ?_) (h2.imp_right ?_)
      · rintro ⟨a', ha', h3⟩
        obtain ⟨a'', ha'', rfl⟩ := List.mem_map.1 ha'
        exact ⟨a'', ha'', h3⟩
      · rintro ⟨a', ha', h3⟩
        obtain ⟨a'', ha'', rfl⟩ := List.mem_map.1 ha'
        exact ⟨a'', ha'', h3⟩
  have hi := (C146_isolated_partial (separate_of_apart hs a) hdir hr i).2 x hx
  simp only [jobsOf, ha] at hi
  refine ⟨hi.1.trans hu.1, ?_⟩
  have h2 : (filesAt digest (sites i) c.disk).spec = .whole s := by
    rw [show filesAt digest (sites i) c.disk = _ from hi.2]
    exact hu.2
  exact h2

/-- a step to that failure is made where the directory is there -/
theorem step_exists {j : Job β} {d d' : SharedDisk σ} {pc : Pc β σ} (hpr : ∀ b, process j.region b ≠ .error (.other "FileExistsError"))
    (h : jobStep digest process j d pc = some (.finished (.error (.other "FileExistsError")), d')) : d'.dir = true := by
  cases pc with
  | start =>
    simp only [jobStep] at h
    split at h
    · rename_i e he
      cases h
      exact absurd he urlHasNewer_exists
    · cases h
    · cases h
  | fetch =>
    simp only [jobStep] at h
    split at h
    · simp at h
    · split at h
      · cases h
      · split at h
        · cases h
        · split at h
          · rename_i er he
            cases h
            exact absurd he loadMetadata_exists
          · cases h
  | save m b => simp only [jobStep] at h; split at h <;> cases h
  | mkdir m b =>
    simp only [jobStep] at h
    split at h
    · rename_i hd
      cases h
      exact hd
    · cases h
  | openMeta m b => cases h
  | writeMeta m b => cases h
  | read b =>
    cases b with
    | none => simp [jobStep] at h
    | some b =>
      simp only [jobStep] at h
      split at h
      · rename_i e he
        cases h
        exact absurd he (hpr b)
      · cases h
  | openSpec s => cases h
  | writeSpec s => cases h
  | finished r => cases h

/-- C148: the directory is there after such a failure, so that the update after it is mended by the one that follows. -/
theorem C148_directory {jobs : ι → Job β} {d₀ : SharedDisk σ} {n : Nat} {c : Pool ι β σ} (h : PoolRun digest process jobs d₀ n c) {i : ι}
    (hpr : ∀ b, process (jobs i).region b ≠ .error (.other "FileExistsError"))
    (he : c.pcs i = .finished (.error (.other "FileExistsError"))) : c.disk.dir = true := by
  induction h with
  | start => cases he
  | @step n c c' _ hstep ih =>
    obtain ⟨k, hk⟩ := hstep
    by_cases hik : i = k
    · subst hik
      simp only [if_pos] at he
      subst he
      exact step_exists hpr hk
    · simp only [if_neg hik] at he
      exact (step_other hk).2.2 (ih he)

/-- C148: the update that comes after such a failure mends it, whether the directory was there or not. -/
theorem C148_next {sites : ι → String × String} {d₀ d : SharedDisk σ} {as : List (ι → Attempt β)} {i : ι} {r : Response β} {b : β}
    {s : σ} (hs : Apart digest sites) (h0 : Installed (filesAt digest (sites i) d₀)) (h : PoolRuns digest process sites (EndedOr i) d₀ as d)
    (hpr : ∀ b, process (sites i).1 b ≠ .error (.other "FileExistsError"))
    {a' : ι → Attempt β} {n' : Nat} {c' : Pool ι β σ} (hr' : PoolRun digest process (jobsOf sites a') d n' c')
    (he : c'.pcs i = .finished (.error (.other "FileExistsError")))
    (htag : ∀ a ∈ as ++ [a'], ∀ r, (a i).get = some r → ∃ e, r.etag = some e ∧ e ≠ "")
    (hf : Faithful (fun r' => r' = r ∨ ∃ a ∈ as ++ [a'], Answered (a i) r')) (hb : r.body = some b) (hp : process (sites i).1 b = .ok s)
    {a : ι → Attempt β} {n : Nat} {c : Pool ι β σ} (ha : a i = ⟨some r, some r⟩)
    (hr : PoolRun digest process (jobsOf sites a) c'.disk n c) {x : PyM Unit} (hx : c.pcs i = .finished x) :
    x = .ok () ∧ c.disk.spec (sites i).1 = .whole s :=
  C148_mended hs h0 (.more h hr' (.inr he)) hpr htag hf hb hp (C148_directory hr' hpr he) ha hr hx

/-- two regions -/
def twoSites (b : Bool) : String × String := if b then ("us-east-1", "https://a") else ("eu-west-1", "https://b")

/-- what their servers answer -/
def twoAnswers (b : Bool) : Attempt Nat :=
  if b then ⟨some ⟨some "x", some 1⟩, some ⟨some "x", some 1⟩⟩ else ⟨some ⟨some "y", some 2⟩, some ⟨some "y", some 2⟩⟩

/-- the hypotheses of C148 are met: the first update fails for one of the regions, and the second brings it in -/
example : Apart id twoSites ∧ Installed (filesAt id (twoSites false) (poolDisk false)) ∧
    ∃ c c' : Pool Bool Nat Nat, PoolRun id (fun _ b => .ok b) (jobsOf twoSites twoAnswers) (poolDisk false) 13 c' ∧
      c'.pcs true = .finished (.ok ()) ∧ c'.pcs false = .finished (.error (.other "FileExistsError")) ∧
      PoolRun id (fun _ b => .ok b) (jobsOf twoSites twoAnswers) c'.disk 8 c ∧ c.pcs false = .finished (.ok ()) ∧ c'.disk.spec "eu-west-1" = .whole 0 ∧
      c.disk.spec "eu-west-1" = .whole 2 := by
  refine ⟨?_, ⟨rfl, 0, rfl⟩, ?_⟩
  · unfold Apart; decide
  have hsome : (schedule id (fun _ b => .ok b) (jobsOf twoSites twoAnswers) ⟨fun _ => .start, poolDisk false⟩
      [true, true, true, false, false, false, true, false, true, true, true, true, true]).isSome = true := by rfl
  obtain ⟨c', hc'⟩ := Option.isSome_iff_exists.1 hsome
  have hsome2 : (schedule id (fun _ b => .ok b) (jobsOf twoSites twoAnswers) ⟨fun _ => .start, c'.disk⟩
      [false, false, false, false, false, false, false, false]).isSome = true := by cases hc'; rfl
  obtain ⟨c, hc⟩ := Option.isSome_iff_exists.1 hsome2
  refine ⟨c, c', schedule_run (PoolRun.start) hc', ?_, ?_, schedule_run (PoolRun.start) hc, ?_, ?_, ?_⟩
  · cases hc'; rfl
  · cases hc'; rfl
  · cases hc'; cases hc; rfl
  · cases hc'; rfl
  · cases hc'; cases hc; rfl

end CfnLint
