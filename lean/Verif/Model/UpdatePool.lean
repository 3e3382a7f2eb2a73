import Verif.Model.Update
/-
Model of `update_resource_specs` (maintenance.py:22-34): the specifications of the regions are updated by the processes of a pool. The disk is
shared: the directory of the download metadata, the metadata by the name of the file, which is a digest of the URL (helpers.py:225-231), and the
specifications by region. A process goes through `update_resource_spec` (maintenance.py:36-85) in steps, each of which looks at the disk or
changes it once; the steps of the processes are taken in any order. The number of processes of the pool is not modelled: a job that waits
for a process is one that takes no step. Nor is what happens when a job fails: the pool is ended (maintenance.py:28), which is a run that
stops. `process` stands for parsing, patching and replacing, as in Model/Update, for each region.
-/
namespace CfnLint

/-- `SPEC_REGIONS`, helpers.py:37-63 -/
def specRegions : List (String × String) :=
  [("af-south-1", "https://cfn-resource-specifications-af-south-1-prod.s3.af-south-1.amazonaws.com/latest/gzip/CloudFormationResourceSpecification.json"),
   ("ap-east-1", "https://cfn-resource-specifications-ap-east-1-prod.s3.ap-east-1.amazonaws.com/latest/gzip/CloudFormationResourceSpecification.json"),
   ("ap-northeast-1", "https://d33vqc0rt9ld30.cloudfront.net/latest/gzip/CloudFormationResourceSpecification.json"),
   ("ap-northeast-2", "https://d1ane3fvebulky.cloudfront.net/latest/gzip/CloudFormationResourceSpecification.json"),
   ("ap-northeast-3", "https://d2zq80gdmjim8k.cloudfront.net/latest/gzip/CloudFormationResourceSpecification.json"),
   ("ap-south-1", "https://d2senuesg1djtx.cloudfront.net/latest/gzip/CloudFormationResourceSpecification.json"),
   ("ap-southeast-1", "https://doigdx0kgq9el.cloudfront.net/latest/gzip/CloudFormationResourceSpecification.json"),
   ("ap-southeast-2", "https://d2stg8d246z9di.cloudfront.net/latest/gzip/CloudFormationResourceSpecification.json"),
   ("ca-central-1", "https://d2s8ygphhesbe7.cloudfront.net/latest/gzip/CloudFormationResourceSpecification.json"),
   ("cn-north-1", "https://cfn-resource-specifications-cn-north-1-prod.s3.cn-north-1.amazonaws.com.cn/latest/gzip/CloudFormationResourceSpecification.json"),
   ("cn-northwest-1", "https://cfn-resource-specifications-cn-northwest-1-prod.s3.cn-northwest-1.amazonaws.com.cn/latest/gzip/CloudFormationResourceSpecification.json"),
   ("eu-central-1", "https://d1mta8qj7i28i2.cloudfront.net/latest/gzip/CloudFormationResourceSpecification.json"),
   ("eu-north-1", "https://diy8iv58sj6ba.cloudfront.net/latest/gzip/CloudFormationResourceSpecification.json"),
   ("eu-south-1", "https://cfn-resource-specifications-eu-south-1-prod.s3.eu-south-1.amazonaws.com/latest/gzip/CloudFormationResourceSpecification.json"),
   ("eu-west-1", "https://d3teyb21fexa9r.cloudfront.net/latest/gzip/CloudFormationResourceSpecification.json"),
   ("eu-west-2", "https://d1742qcu2c1ncx.cloudfront.net/latest/gzip/CloudFormationResourceSpecification.json"),
   ("eu-west-3", "https://d2d0mfegowb3wk.cloudfront.net/latest/gzip/CloudFormationResourceSpecification.json"),
   ("me-south-1", "https://cfn-resource-specifications-me-south-1-prod.s3.me-south-1.amazonaws.com/latest/gzip/CloudFormationResourceSpecification.json"),
   ("sa-east-1", "https://d3c9jyj3w509b0.cloudfront.net/latest/gzip/CloudFormationResourceSpecification.json"),
   ("us-east-1", "https://d1uauaxba7bl26.cloudfront.net/latest/gzip/CloudFormationResourceSpecification.json"),
   ("us-east-2", "https://dnwj8swjjbsbt.cloudfront.net/latest/gzip/CloudFormationResourceSpecification.json"),
   ("us-gov-east-1", "https://s3.us-gov-east-1.amazonaws.com/cfn-resource-specifications-us-gov-east-1-prod/latest/gzip/CloudFormationResourceSpecification.json"),
   ("us-gov-west-1", "https://s3.us-gov-west-1.amazonaws.com/cfn-resource-specifications-us-gov-west-1-prod/latest/gzip/CloudFormationResourceSpecification.json"),
   ("us-west-1", "https://d68hl49wbnanq.cloudfront.net/latest/gzip/CloudFormationResourceSpecification.json"),
   ("us-west-2", "https://d201a2mn26r7lk.cloudfront.net/latest/gzip/CloudFormationResourceSpecification.json")
  ]

/-- the files of all regions -/
structure SharedDisk (σ : Type) where
  /-- the directory of the metadata is there -/
  dir : Bool
  metafile : String → File Metadata
  spec : String → File σ

/-- the update of one region: its name, its URL, and the answers to the two requests -/
structure Job (β : Type) where
  region : String
  url : String
  head : Option (Response β)
  get : Option (Response β)

/-- where a process is in `update_resource_spec` -/
inductive Pc (β σ : Type) where
  /-- maintenance.py:48 -/
  | start
  /-- helpers.py:273 -/
  | fetch
  /-- helpers.py:306: is the directory there? -/
  | save (m : Metadata) (body : Option β)
  /-- helpers.py:307: it was not -/
  | mkdir (m : Metadata) (body : Option β)
  /-- helpers.py:309: the file is opened -/
  | openMeta (m : Metadata) (body : Option β)
  /-- helpers.py:310 -/
  | writeMeta (m : Metadata) (body : Option β)
  /-- helpers.py:284-289 and maintenance.py:51-82 -/
  | read (body : Option β)
  /-- maintenance.py:84 -/
  | openSpec (s : σ)
  /-- maintenance.py:85 -/
  | writeSpec (s : σ)
  | finished (r : PyM Unit)

variable {β σ : Type}

/-- a file is written -/
def setFile {α : Type} (f : String → α) (k : String) (a : α) : String → α := fun x => if x = k then a else f x

/-- one step of the process of a region, maintenance.py:36-85 and helpers.py:225-310; `digest` is helpers.py:228-229 -/
def jobStep (digest : String → String) (process : String → β → PyM σ) (j : Job β) (d : SharedDisk σ) : Pc β σ → Option (Pc β σ × SharedDisk σ)
  | .start =>
    match urlHasNewer (d.metafile (digest j.url)) j.head with
    | .error e => some (.finished (.error e), d)
    | .ok false => some (.finished (.ok ()), d)
    | .ok true => some (.fetch, d)
  | .fetch =>
    match j.get with
    | none => some (.finished (.error (.other "URLError")), d)
    | some r =>
      match r.etag with
      | none => some (.read r.body, d)
      | some e =>
        if e = "" then some (.read r.body, d)
        else
          match loadMetadata (d.metafile (digest j.url)) with
          | .error er => some (.finished (.error er), d)
          | .ok md => some (.save (newMetadata j.url e md) r.body, d)
  | .save m b => if d.dir then some (.openMeta m b, d) else some (.mkdir m b, d)
  | .mkdir m b => if d.dir then some (.finished (.error (.other "FileExistsError")), d) else some (.openMeta m b, { d with dir := true })
  | .openMeta m b => some (.writeMeta m b, { d with metafile := setFile d.metafile (digest j.url) .torn })
  | .writeMeta m b => some (.read b, { d with metafile := setFile d.metafile (digest j.url) (.whole m) })
  | .read none => some (.finished (.error (.other "IncompleteRead")), d)
  | .read (some b) =>
    match process j.region b with
    | .error e => some (.finished (.error e), d)
    | .ok s => some (.openSpec s, d)
  | .openSpec s => some (.writeSpec s, { d with spec := setFile d.spec j.region .torn })
  | .writeSpec s => some (.finished (.ok ()), { d with spec := setFile d.spec j.region (.whole s) })
  | .finished _ => none

/-- the processes and the disk -/
structure Pool (ι β σ : Type) where
  pcs : ι → Pc β σ
  disk : SharedDisk σ

/-- one of the processes takes a step -/
inductive PoolStep {ι : Type} [DecidableEq ι] (digest : String → String) (process : String → β → PyM σ) (jobs : ι → Job β) : Pool ι β σ → Pool ι β σ → Prop where
  | move {c : Pool ι β σ} (i : ι) {pc : Pc β σ} {d : SharedDisk σ} : jobStep digest process (jobs i) c.disk (c.pcs i) = some (pc, d) →
      PoolStep digest process jobs c ⟨fun k => if k = i then pc else c.pcs k, d⟩

/-- what the pool can come to in a number of steps, maintenance.py:28-29 -/
inductive PoolRun {ι : Type} [DecidableEq ι] (digest : String → String) (process : String → β → PyM σ) (jobs : ι → Job β) (d₀ : SharedDisk σ) :
    Nat → Pool ι β σ → Prop where
  | start : PoolRun digest process jobs d₀ 0 ⟨fun _ => .start, d₀⟩
  | step {n c c'} : PoolRun digest process jobs d₀ n c → PoolStep digest process jobs c c' → PoolRun digest process jobs d₀ (n + 1) c'

end CfnLint
