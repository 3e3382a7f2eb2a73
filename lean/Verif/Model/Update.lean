import Verif.Model.Py
/-
Model of the specification update: `url_has_newer_version`, `get_url_content`, `load_metadata`,
`save_metadata` (helpers.py:225-310) and `update_resource_spec` (maintenance.py:36-85), for one region.

The disk holds two files: the download metadata of the URL and the specification of the region. `open(f, 'w')`
truncates the file before anything is written, so a write goes through a torn state. An update is the list of
the states of the disk it goes through, the first being the one it starts from, and its outcome; when it is
interrupted the disk is in one of these states. `process` stands for parsing the body, patching it and
replacing the botocore types (maintenance.py:53-82), which may raise (also because of the network). Creating
the metadata directory is not modelled, nor are the other regions: their files are different.
-/
namespace CfnLint

/-- a file: absent, truncated or partly written, or written whole -/
inductive File (α : Type) where
  | missing | torn
  | whole (a : α)
deriving DecidableEq, Repr

/-- the contents of a metadata file: an object of texts -/
abbrev Metadata := List (String × String)

/-- the files of one region -/
structure Disk (σ : Type) where
  metafile : File Metadata
  spec : File σ
deriving DecidableEq, Repr

/-- the answer of the server: its `ETag` header and the body (`none` when the download is cut off) -/
structure Response (β : Type) where
  etag : Option String
  body : Option β

variable {β σ : Type}

/-- `load_metadata`, helpers.py:294-300: `json.load` raises `ValueError` on a torn file -/
def loadMetadata : File Metadata → PyM Metadata
  | .missing => .ok []
  | .torn => .error (.valueError "Expecting value")
  | .whole m => .ok m

/-- `url_has_newer_version`, helpers.py:233-268; `head` is the answer to the HEAD request, `none` when it
fails -/
def urlHasNewer (m : File Metadata) (head : Option (Response β)) : PyM Bool :=
  match loadMetadata m with
  | .error e => .error e
  | .ok md =>
    match dlookup "etag" md with
    | none => .ok true
    | some cached =>
      match head with
      | none => .error (.other "URLError")
      | some r =>
        match r.etag with
        | none => .ok true
        | some e => .ok (!(cached != "" && e != "" && cached == e))

/-- the metadata saved by `get_url_content`, helpers.py:278-281 -/
def newMetadata (url e : String) (md : Metadata) : Metadata := dset "url" url (dset "etag" e md)

/-- an update: the states of the disk, and the outcome -/
structure Progress (σ : Type) where
  states : List (Disk σ)
  result : PyM Unit

/-- the disk at the end -/
def Progress.final (p : Progress σ) (d : Disk σ) : Disk σ := p.states.getLast?.getD d

/-- maintenance.py:51-85 after the metadata: read the body, process it, write the specification -/
def writeSpec (process : β → PyM σ) (body : Option β) (d : Disk σ) : Progress σ :=
  match body with
  | none => ⟨[d], .error (.other "IncompleteRead")⟩
  | some b =>
    match process b with
    | .error e => ⟨[d], .error e⟩
    | .ok s => ⟨[d, { d with spec := .torn }, { d with spec := .whole s }], .ok ()⟩

/-- `get_url_content(url, caching=True)` and the rest, helpers.py:270-291 and maintenance.py:48-85: the metadata
is saved before the body is read -/
def fetchSpec (process : β → PyM σ) (url : String) (get : Option (Response β)) (d : Disk σ) : Progress σ :=
  match get with
  | none => ⟨[d], .error (.other "URLError")⟩
  | some r =>
    match r.etag with
    | none => writeSpec process r.body d
    | some e =>
      if e = "" then writeSpec process r.body d
      else
        match loadMetadata d.metafile with
        | .error er => ⟨[d], .error er⟩
        | .ok md =>
          let d' : Disk σ := { d with metafile := .whole (newMetadata url e md) }
          let rest := writeSpec process r.body d'
          ⟨d :: { d with metafile := .torn } :: rest.states, rest.result⟩

/-- `update_resource_spec`, maintenance.py:36-85; `head` and `get` are the answers to the two requests -/
def updateSpec (process : β → PyM σ) (url : String) (head get : Option (Response β)) (d : Disk σ) : Progress σ :=
  match urlHasNewer d.metafile head with
  | .error e => ⟨[d], .error e⟩
  | .ok false => ⟨[d], .ok ()⟩
  | .ok true => fetchSpec process url get d

end CfnLint
