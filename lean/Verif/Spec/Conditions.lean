import Verif.Model.Py
/-
Specification of CloudFormation conditions, independent of the model of conditions.py.

An assignment `σ` gives the text every function expression (`{"Ref": ..}`, `{"Fn::FindInMap": ..}`, ...)
evaluates to.
-/
namespace CfnLint.Spec

/-- The text a literal stands for in CloudFormation (all parameter values are texts). -/
def litText : Val → Option String
  | .str s => some s
  | .int i => some (toString i)
  | .bool b => some (if b then "true" else "false")
  | _ => none

/-- A function expression: an object with exactly one key. -/
def IsExpr (v : Val) : Prop := ∃ k w, v = .dict [(k, w)]

/-- The value of an operand of `Fn::Equals`. -/
inductive Operand (σ : Val → String) : Val → String → Prop
  | expr {k w} : Operand σ (.dict [(k, w)]) (σ (.dict [(k, w)]))
  | lit {v s} : litText v = some s → Operand σ v s

/-- `Evals P conds σ v b`: under the assignment `σ` the condition `v` has the truth value `b`, where named
conditions are looked up in `conds` and only comparisons whose operands satisfy `P` are used.
The derivation is finite, so the named conditions it uses are acyclic. -/
inductive Evals (P : Val → Val → Prop) (conds : List (Key × Val)) (σ : Val → String) : Val → Bool → Prop
  | equals {a b x y} : P a b → Operand σ a x → Operand σ b y →
      Evals P conds σ (.dict [(.str "Fn::Equals", .list [a, b])]) (x == y)
  | and {vs f} : vs ≠ [] → (∀ v ∈ vs, Evals P conds σ v (f v)) →
      Evals P conds σ (.dict [(.str "Fn::And", .list vs)]) (vs.all f)
  | or {vs f} : vs ≠ [] → (∀ v ∈ vs, Evals P conds σ v (f v)) →
      Evals P conds σ (.dict [(.str "Fn::Or", .list vs)]) (vs.any f)
  | not {v b} : Evals P conds σ v b → Evals P conds σ (.dict [(.str "Fn::Not", .list [v])]) (!b)
  | named {name v b} : dlookup (Key.str name) conds = some v → Evals P conds σ v b →
      Evals P conds σ (.dict [(.str "Condition", .str name)]) b

/-- `Uses conds v e`: the expression `e` is compared with something when the condition `v` is evaluated. -/
inductive Uses (conds : List (Key × Val)) : Val → Val → Prop
  | left {a b} : IsExpr a → Uses conds (.dict [(.str "Fn::Equals", .list [a, b])]) a
  | right {a b} : IsExpr b → Uses conds (.dict [(.str "Fn::Equals", .list [a, b])]) b
  | inside {k vs v e} : k ∈ ["Fn::And", "Fn::Or", "Fn::Not"] → v ∈ vs → Uses conds v e →
      Uses conds (.dict [(.str k, .list vs)]) e
  | named {name v e} : dlookup (Key.str name) conds = some v → Uses conds v e →
      Uses conds (.dict [(.str "Condition", .str name)]) e

/-- All comparisons. -/
def AnyEquals (_ _ : Val) : Prop := True

/-- A text or integer literal. -/
def PlainLit : Val → Prop
  | .str _ => True
  | .int _ => True
  | _ => False

/-- Comparisons of one function expression with one text or integer literal. -/
def OneSided (a b : Val) : Prop := (IsExpr a ∧ PlainLit b) ∨ (PlainLit a ∧ IsExpr b)

/-- A condition built from one-sided comparisons: it has a truth value under every assignment. -/
def WellFormed (conds : List (Key × Val)) (v : Val) : Prop :=
  ∀ σ, ∃ b, Evals OneSided conds σ v b

/-- Expressions with the same fingerprint have the same value. -/
def Respects (H : Val → String) (σ : Val → String) : Prop := ∀ a b, H a = H b → σ a = σ b

/-- The `Conditions` section. -/
def conditionsOf (tmpl : List (Key × Val)) : List (Key × Val) :=
  match dlookup (Key.str "Conditions") tmpl with
  | some (.dict kvs) => kvs
  | _ => []

/-- Parameter `p` lists the allowed values `vals`. -/
def Allows (tmpl : List (Key × Val)) (p : Key) (vals : List Val) : Prop :=
  ∃ ps body, dlookup (Key.str "Parameters") tmpl = some (.dict ps) ∧
    dlookup p ps = some (.dict body) ∧
    dlookup (Key.str "AllowedValues") body = some (.list vals)

/-- the reference to a parameter -/
def refTo (p : Key) : Val := .dict [(.str "Ref", p.toVal)]

/-- The assignment respects the allowed values of the parameters (an empty list allows everything). -/
def Permitted (tmpl : List (Key × Val)) (σ : Val → String) : Prop :=
  ∀ p vals, Allows tmpl p vals → vals ≠ [] →
    ∃ v ∈ vals, litText v = some (σ (refTo p))

/-- All allowed values are texts or integers. -/
def PlainAllowed (tmpl : List (Key × Val)) : Prop :=
  ∀ p vals, Allows tmpl p vals → ∀ v ∈ vals, PlainLit v

mutual
/-- `s` occurs as a text literal (or as the text of an integer) somewhere in the value. -/
def LitIn (s : String) : Val → Prop
  | .str t => s = t
  | .int i => s = toString i
  | .bool b => s = if b then "True" else "False"
  | .list xs => LitInList s xs
  | .dict kvs => LitInDict s kvs
  | _ => False
def LitInList (s : String) : List Val → Prop
  | [] => False
  | x :: xs => LitIn s x ∨ LitInList s xs
def LitInDict (s : String) : List (Key × Val) → Prop
  | [] => False
  | kv :: rest => LitIn s kv.2 ∨ LitInDict s rest
end

/-- No literal of the conditions is the fingerprint of an expression. -/
def NoHashLiterals (H : Val → String) (conds : List (Key × Val)) : Prop :=
  ∀ s, LitInDict s conds → ∀ e, H e ≠ s

/-- `enum` enumerates sets: it lists exactly the members, in some order that may depend on the set. -/
def Enumerates (enum : String → List String → List String) : Prop := ∀ h s x, x ∈ enum h s ↔ x ∈ s

/-- Different references have different fingerprints. -/
def RefsDistinct (H : Val → String) : Prop := ∀ p q, H (refTo p) = H (refTo q) → p = q

/-- Two different requested conditions compare the same expression. -/
def Related (conds : List (Key × Val)) (req : List Key) : Prop :=
  ∃ c ∈ req, ∃ c' ∈ req, c ≠ c' ∧ ∃ v v' e, dlookup c conds = some v ∧ dlookup c' conds = some v' ∧
    Uses conds v e ∧ Uses conds v' e

end CfnLint.Spec
