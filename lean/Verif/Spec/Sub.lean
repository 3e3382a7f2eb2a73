import Verif.Spec.Graph
/-
Specification of the text of `Fn::Sub` and of the uses of parameters and mappings.
-/
namespace CfnLint.Spec

/-- A blank inside the braces of a variable. -/
def SubBlank (l : List Char) : Prop := ∀ c ∈ l, c = ' ' ∨ c = '\t'

/-- White space: the characters of Unicode's categories Zs, Zl, Zp and bidirectional types WS, B, S. -/
def WhiteSpace (c : Char) : Prop :=
  c.toNat ∈ [9, 10, 11, 12, 13, 28, 29, 30, 31, 32, 133, 160, 5760, 8192, 8193, 8194, 8195, 8196, 8197, 8198, 8199,
    8200, 8201, 8202, 8232, 8233, 8239, 8287, 12288]

/-- `x` is `b` without the white space at its ends. -/
def Trimmed (b x : List Char) : Prop :=
  (∃ l r, b = l ++ (x ++ r) ∧ (∀ c ∈ l, WhiteSpace c) ∧ ∀ c ∈ r, WhiteSpace c) ∧
    (∀ c, x.head? = some c → ¬ WhiteSpace c) ∧ ∀ c, x.getLast? = some c → ¬ WhiteSpace c

/-- A name as it may stand between the braces: visible ASCII characters other than `$`, `{`, `}`. -/
def SubName (n : List Char) : Prop := ∀ c ∈ n, '!' ≤ c ∧ c ≤ '~' ∧ c ≠ '$' ∧ c ≠ '{' ∧ c ≠ '}'

/-- `SubText s ns`: the text `s` is well formed and `ns` are its variables from left to right. `${name}` is a
variable, `${!name}` stands for the text `${name}`, and `${` stands nowhere else. -/
inductive SubText : List Char → List (List Char) → Prop
  | nil : SubText [] []
  | char {c s ns} : ¬ (c = '$' ∧ s.head? = some '{') → SubText s ns → SubText (c :: s) ns
  | literal {n s ns} : SubName n → SubText s ns → SubText ('$' :: '{' :: '!' :: (n ++ '}' :: s)) ns
  | var {l n r s ns} : SubBlank l → SubName n → n ≠ [] → n.head? ≠ some '!' → SubBlank r → SubText s ns →
      SubText ('$' :: '{' :: (l ++ (n ++ (r ++ '}' :: s)))) (n :: ns)

/-- `n` is a variable of the text. -/
def SubVar (s n : String) : Prop := ∃ ns, SubText s.toList ns ∧ n.toList ∈ ns

/-- The parameter `p` is used: by `Ref`, or as a variable of `Fn::Sub` that the call does not define itself. -/
inductive UsesParam (t : Val) (p : String) : Prop
  | ref {q} : At t (q ++ [.str "Ref"]) (.str p) → UsesParam t p
  | sub {q s} : At t (q ++ [.str "Fn::Sub"]) (.str s) → SubVar s p → UsesParam t p
  | subMap {q s m} : At t (q ++ [.str "Fn::Sub"]) (.list [.str s, .dict m]) → SubVar s p →
      (∀ w, (.str p, w) ∉ m) → UsesParam t p

/-- Every `Fn::Sub` is a well-formed text, or such a text with an object of variables. -/
def SubShape (t : Val) : Prop :=
  ∀ q v, At t (q ++ [.str "Fn::Sub"]) v →
    ∃ s ns, SubText s.toList ns ∧ (v = .str s ∨ ∃ m, v = .list [.str s, .dict m])

/-- The section is absent or an object whose entries are named by text. -/
def TextSection (t : Val) (sec : String) : Prop :=
  (∃ top, t = .dict top) ∧
    ∀ v, At t [.str sec] v → ∃ kvs, v = .dict kvs ∧ ∀ k w, (k, w) ∈ kvs → ∃ s, k = .str s

/-- No variable an `Fn::Sub` defines has the name of a parameter. -/
def NoShadow (pre t : Val) : Prop :=
  ∀ q s m k w, At pre (q ++ [.str "Fn::Sub"]) (.list [.str s, .dict m]) → (k, w) ∈ m →
    ¬ ∃ v, At t [.str "Parameters", k] v

/-- The mapping is used by its name. -/
def UsesMap (t : Val) (m : String) : Prop := ∃ q, At t (q ++ [.str "Fn::FindInMap", .int 0]) (.str m)

/-- The name of a mapping is computed somewhere. -/
def ComputedMap (t : Val) : Prop := ∃ q kvs, At t (q ++ [.str "Fn::FindInMap", .int 0]) (.dict kvs)

/-- Every `Fn::FindInMap` is a list whose first element is a name or a function. -/
def FindInMapShape (t : Val) : Prop :=
  ∀ q v, At t (q ++ [.str "Fn::FindInMap"]) v →
    ∃ x rest, v = .list (x :: rest) ∧ ((∃ s, x = .str s) ∨ ∃ kvs, x = .dict kvs)

end CfnLint.Spec
