import Verif.Model.Update
/-
Interrupted updates. The server's answers and the point at which an update is interrupted are arbitrary.
-/
namespace CfnLint.Spec
variable {β σ : Type}

/-- one attempt at an update: what the server answers, and the state in which the disk is left -/
structure Attempt (β : Type) where
  head : Option (Response β)
  get : Option (Response β)

/-- the disk goes from `d` to `d'` by an update that is interrupted somewhere, or not -/
def Interrupted (process : β → PyM σ) (url : String) (a : Attempt β) (d d' : Disk σ) : Prop :=
  d' ∈ (updateSpec process url a.head a.get d).states

/-- the disk goes from `d` to `d'` by an update that runs to its end without an error -/
def Completed (process : β → PyM σ) (url : String) (a : Attempt β) (d d' : Disk σ) : Prop :=
  (updateSpec process url a.head a.get d).result = .ok () ∧ d' = (updateSpec process url a.head a.get d).final d

/-- a sequence of attempts, each related to the disks before and after by `step` -/
inductive Attempts (step : Attempt β → Disk σ → Disk σ → Prop) (d : Disk σ) : List (Attempt β) → Disk σ → Prop where
  | start : Attempts step d [] d
  | more {as : List (Attempt β)} {a : Attempt β} {d₁ d₂ : Disk σ} :
      Attempts step d as d₁ → step a d₁ d₂ → Attempts step d (as ++ [a]) d₂

/-- the answers given to an attempt -/
def Answered (a : Attempt β) (r : Response β) : Prop := a.head = some r ∨ a.get = some r

/-- equal tags mean equal bodies, among all the answers of the server -/
def Faithful (rs : Response β → Prop) : Prop :=
  ∀ r s, rs r → rs s → ∀ e x y, r.etag = some e → s.etag = some e → r.body = some x → s.body = some y → x = y

/-- the later update, with a server that answers `r` to both requests, ends with the specification of `r` -/
def UpToDate (process : β → PyM σ) (url : String) (r : Response β) (s : σ) (d : Disk σ) : Prop :=
  (updateSpec process url (some r) (some r) d).result = .ok () ∧
    ((updateSpec process url (some r) (some r) d).final d).spec = .whole s

/-- as installed: a specification and no metadata -/
def Installed (d : Disk σ) : Prop := d.metafile = .missing ∧ ∃ s, d.spec = .whole s

end CfnLint.Spec
