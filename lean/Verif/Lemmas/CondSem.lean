import Verif.Lemmas.Conditions
namespace CfnLint
open Spec

/-! ### Parsed conditions mean what the template says -/

/-- The text an operand evaluates to when hashes have the values `τ`. -/
def EqV.val (τ : String → String) (v : EqV) : String :=
  match v.fn with
  | some h => τ h
  | none => v.str.getD ""

/-- The truth value of a comparison when hashes have the values `τ`. -/
def CEquals.holds (τ : String → String) (e : CEquals) : Bool := e.left.val τ == e.right.val τ

/-- A comparison of the hash of `x` with the text `s`. -/
def CEquals.Is (H : Val → String) (e : CEquals) (x : Val) (s : String) : Prop :=
  (e.left = { fn := some (H x) } ∧ e.right = { str := some s }) ∨
  (e.left = { str := some s } ∧ e.right = { fn := some (H x) })

/-- A parsed condition that evaluates as the value `v` it was parsed from. -/
structure GoodObj (H : Val → String) (conds : List (Key × Val)) (τ : String → String) (v : Val) (b : Bool)
    (o : CObj) : Prop where
  complete : o.complete = true
  ev : o.ev (CEquals.holds τ) = b
  eqs : ∀ e ∈ o.eqs, ∃ x s, Uses conds v x ∧ e.Is H x s
  used : ∀ x, Uses conds v x → ∃ e ∈ o.eqs, ∃ s, e.Is H x s

/-- one step of the loop of `process_function` for an object with one key -/
def itemStep (H : Val → String) (tmpl : Val) (rec : Val → ParseOut) (k : Key) (v : Val) :
    Except CErr (CObj × (Infl → Infl)) :=
  if k = .str "Fn::Equals" then
    match mkEquals H v with
    | .error e => .error e
    | .ok e => .ok (.equals e, inflEqual e)
  else if k = .str "Condition" then
    match condByName rec tmpl v with
    | .error e => .error (.py e)
    | .ok (c, ci) => .ok (c, inflMerge ci)
  else
    match finishCondition (rec (.dict [(k, v)])) with
    | .error e => .error (.py e)
    | .ok (c, ci) => .ok (c, inflMerge ci)

theorem processItems_step {H : Val → String} {tmpl : Val} {rec : Val → ParseOut} {k : Key} {v : Val}
    {rest : List Val} {infl : Infl} {acc : List CObj} :
    processItems H tmpl rec (.dict [(k, v)] :: rest) infl acc =
      match itemStep H tmpl rec k v with
      | .error e => (infl, .error e)
      | .ok (o, g) => processItems H tmpl rec rest (g infl) (acc ++ [o]) := by
  rw [processItems_one]
  unfold itemStep
  split
  · cases mkEquals H v <;> rfl
  · split
    · cases condByName rec tmpl v <;> rfl
    · cases finishCondition (rec (.dict [(k, v)])) <;> rfl

/-- parsing the value either exceeds the recursion limit or is right -/
def RecGood (H : Val → String) (tmpl : Val) (conds : List (Key × Val)) (τ : String → String) (n : Nat)
    (v : Val) (b : Bool) : Prop :=
  (processCondition H tmpl n v).2 = .error (.py .recursionError) ∨
  ∃ p, (processCondition H tmpl n v).2 = .ok p ∧ GoodObj H conds τ v b (.cond p.and p.or p.not p.eq)

def ItemGood (H : Val → String) (tmpl : Val) (conds : List (Key × Val)) (τ : String → String) (n : Nat)
    (v : Val) (b : Bool) : Prop :=
  ∃ k w, v = .dict [(k, w)] ∧
    (itemStep H tmpl (processCondition H tmpl n) k w = .error (.py .recursionError) ∨
     ∃ o g, itemStep H tmpl (processCondition H tmpl n) k w = .ok (o, g) ∧ GoodObj H conds τ v b o)

/-- What holds for the parsed members of a list of conditions. -/
structure GoodList (H : Val → String) (conds : List (Key × Val)) (τ : String → String) (vs : List Val)
    (f : Val → Bool) (os : List CObj) : Prop where
  length : os.length = vs.length
  complete : os.all CObj.complete = true
  all : os.all (CObj.ev (CEquals.holds τ)) = vs.all f
  any : os.any (CObj.ev (CEquals.holds τ)) = vs.any f
  eqs : ∀ e ∈ CObj.eqsAll os, ∃ v ∈ vs, ∃ x s, Uses conds v x ∧ e.Is H x s
  used : ∀ v ∈ vs, ∀ x, Uses conds v x → ∃ e ∈ CObj.eqsAll os, ∃ s, e.Is H x s

theorem processItems_good {H : Val → String} {tmpl : Val} {conds : List (Key × Val)} {τ : String → String}
    {n : Nat} {f : Val → Bool} : ∀ (vs : List Val) (infl : Infl) (acc : List CObj),
    (∀ v ∈ vs, ItemGood H tmpl conds τ n v (f v)) →
    (processItems H tmpl (processCondition H tmpl n) vs infl acc).2 = .error (.py .recursionError) ∨
    ∃ os, (processItems H tmpl (processCondition H tmpl n) vs infl acc).2 = .ok (acc ++ os) ∧
      GoodList H conds τ vs f os := by
  intro vs
  induction vs with
  | nil =>
    intro infl acc _
    right
    refine ⟨[], by simp [processItems], ⟨rfl, rfl, rfl, rfl, by simp [CObj.eqsAll], by simp⟩⟩
  | cons v vs ih =>
    intro infl acc h
    obtain ⟨k, w, rfl, hg⟩ := h v List.mem_cons_self
    rw [processItems_step]
    rcases hg with hg | ⟨o, g, hg, good⟩
    · rw [hg]; left; rfl
    · rw [hg]
      simp only
      rcases ih (g infl) (acc ++ [o]) (fun x hx => h x (List.mem_cons_of_mem _ hx)) with ih | ⟨os, ih, gl⟩
      · exact .inl ih
      · right
        refine ⟨o :: os, by rw [ih]; simp, ⟨?_, ?_, ?_, ?_, ?_, ?_⟩⟩
        · simp [gl.length]
        · simp only [List.all_cons, good.complete, gl.complete, Bool.and_self]
        · simp only [List.all_cons, good.ev, gl.all]
        · simp only [List.any_cons, good.ev, gl.any]
        · intro e he
          rw [CObj.eqsAll, List.mem_append] at he
          rcases he with he | he
          · obtain ⟨x, s, hx⟩ := good.eqs e he
            exact ⟨_, List.mem_cons_self, x, s, hx⟩
          · obtain ⟨v, hv, hx⟩ := gl.eqs e he
            exact ⟨v, List.mem_cons_of_mem _ hv, hx⟩
        · intro v hv x hx
          rw [CObj.eqsAll]
          rcases List.mem_cons.1 hv with rfl | hv
          · obtain ⟨e, he, hs⟩ := good.used x hx
            exact ⟨e, List.mem_append_left _ he, hs⟩
          · obtain ⟨e, he, hs⟩ := gl.used v hv x hx
            exact ⟨e, List.mem_append_right _ he, hs⟩

theorem getD_dict {t : List (Key × Val)} {k : String} {d : Val} :
    (Val.dict t).getD k d = .ok ((dlookup (Key.str k) t).getD d) := rfl

theorem lookup_named {t : List (Key × Val)} {conds : List (Key × Val)} {name : String} {v : Val}
    (ht : dlookup (Key.str "Conditions") t = some (.dict conds))
    (h : dlookup (Key.str name) conds = some v) :
    lookupCondition (.dict t) (.str name) = .ok v := by
  simp [lookupCondition, getD_dict, ht, h]

theorem mkEqV_expr {H : Val → String} {v : Val} (h : IsExpr v) : mkEqV H v = .ok { fn := some (H v) } := by
  obtain ⟨k, w, rfl⟩ := h
  simp [mkEqV]

theorem mkEqV_lit {H : Val → String} {v : Val} (h : PlainLit v) :
    ∃ s, litText v = some s ∧ mkEqV H v = .ok { str := some s } := by
  cases v with
  | str s => exact ⟨s, rfl, rfl⟩
  | int i => exact ⟨toString i, rfl, rfl⟩
  | _ => exact absurd h (by simp [PlainLit])

theorem operand_expr {σ : Val → String} {v : Val} {s : String} (he : IsExpr v) (h : Operand σ v s) :
    s = σ v := by
  obtain ⟨k, w, rfl⟩ := he
  cases h with
  | expr => rfl
  | lit h => simp [litText] at h

theorem operand_lit {σ : Val → String} {v : Val} {s t : String} (hl : litText v = some t)
    (h : Operand σ v s) : s = t := by
  cases h with
  | expr => simp [litText] at hl
  | lit h => rw [hl] at h; injection h with h; exact h.symm

theorem lit_not_expr {v : Val} (h : PlainLit v) : ¬ IsExpr v := by
  rintro ⟨k, w, rfl⟩
  exact h

theorem uses_equals {conds : List (Key × Val)} {a b x : Val}
    (h : Uses conds (.dict [(.str "Fn::Equals", .list [a, b])]) x) :
    (x = a ∧ IsExpr a) ∨ (x = b ∧ IsExpr b) := by
  generalize hv : Val.dict [(.str "Fn::Equals", .list [a, b])] = v at h
  cases h with
  | left h => simp at hv; exact .inl ⟨hv.1.symm, hv.1 ▸ h⟩
  | right h => simp at hv; exact .inr ⟨hv.2.symm, hv.2 ▸ h⟩
  | inside hk _ _ => simp at hv; rw [← hv.1] at hk; simp at hk
  | named _ _ => simp at hv

theorem uses_list {conds : List (Key × Val)} {k : String} {vs : List Val} {x : Val}
    (hk : k ≠ "Fn::Equals") (h : Uses conds (.dict [(.str k, .list vs)]) x) : ∃ v ∈ vs, Uses conds v x := by
  generalize hv : Val.dict [(.str k, .list vs)] = v at h
  cases h with
  | left h => simp at hv; exact absurd hv.1 hk
  | right h => simp at hv; exact absurd hv.1 hk
  | inside _ hm hu => simp at hv; rw [hv.2]; exact ⟨_, hm, hu⟩
  | named _ _ => simp at hv

theorem uses_named {conds : List (Key × Val)} {name : String} {x v : Val}
    (hl : dlookup (Key.str name) conds = some v)
    (h : Uses conds (.dict [(.str "Condition", .str name)]) x) : Uses conds v x := by
  generalize hv : Val.dict [(.str "Condition", .str name)] = w at h
  cases h with
  | left h => simp at hv
  | right h => simp at hv
  | inside hk hm hu => simp at hv
  | named h hu => simp at hv; rw [← hv, hl] at h; injection h with h; rw [h]; exact hu

theorem mkEquals_good {H : Val → String} {conds : List (Key × Val)} {σ : Val → String}
    {τ : String → String} {a b : Val} {x y : String} (hp : OneSided a b) (ha : Operand σ a x)
    (hb : Operand σ b y)
    (hτ : ∀ e, Uses conds (.dict [(.str "Fn::Equals", .list [a, b])]) e → τ (H e) = σ e) :
    ∃ e, mkEquals H (.list [a, b]) = .ok e ∧ e.holds τ = (x == y) ∧
      ∃ z s, Uses conds (.dict [(.str "Fn::Equals", .list [a, b])]) z ∧ e.Is H z s ∧
        ∀ x, Uses conds (.dict [(.str "Fn::Equals", .list [a, b])]) x → x = z := by
  rcases hp with ⟨he, hl⟩ | ⟨hl, he⟩
  · obtain ⟨s, hs, hm⟩ := mkEqV_lit (H := H) hl
    have hu := Uses.left (conds := conds) (b := b) he
    refine ⟨{ left := { fn := some (H a) }, right := { str := some s } }, ?_, ?_, a, s, hu,
      .inl ⟨rfl, rfl⟩, fun x hx => (uses_equals hx).elim And.left (fun h => absurd h.2 (lit_not_expr hl))⟩
    · simp [mkEquals, mkEqV_expr he, hm]
    · simp [CEquals.holds, EqV.val, hτ _ hu, operand_expr he ha, operand_lit hs hb]
  · obtain ⟨s, hs, hm⟩ := mkEqV_lit (H := H) hl
    have hu := Uses.right (conds := conds) (a := a) he
    refine ⟨{ left := { str := some s }, right := { fn := some (H b) } }, ?_, ?_, b, s, hu,
      .inr ⟨rfl, rfl⟩, fun x hx => (uses_equals hx).elim (fun h => absurd h.2 (lit_not_expr hl)) And.left⟩
    · simp [mkEquals, mkEqV_expr he, hm]
    · simp [CEquals.holds, EqV.val, hτ _ hu, operand_expr he hb, operand_lit hs ha]

/-- `RecGood` for a value that is neither a comparison nor a name gives `ItemGood`. -/
theorem item_of_rec {H : Val → String} {tmpl : Val} {conds : List (Key × Val)} {τ : String → String}
    {n : Nat} {k : Key} {w : Val} {b : Bool} (h1 : k ≠ .str "Fn::Equals") (h2 : k ≠ .str "Condition")
    (h : RecGood H tmpl conds τ n (.dict [(k, w)]) b) :
    ItemGood H tmpl conds τ n (.dict [(k, w)]) b := by
  refine ⟨k, w, rfl, ?_⟩
  unfold itemStep
  rw [if_neg h1, if_neg h2]
  rcases h with h | ⟨p, h, g⟩
  · left
    rcases hr : processCondition H tmpl n (.dict [(k, w)]) with ⟨i, r⟩
    rw [hr] at h
    simp only at h
    subst h
    rfl
  · right
    rcases hr : processCondition H tmpl n (.dict [(k, w)]) with ⟨i, r⟩
    rw [hr] at h
    simp only at h
    subst h
    exact ⟨_, _, rfl, g⟩

/-- Parsing is right for every condition made of one-sided comparisons. -/
theorem parse_good {H : Val → String} {t conds : List (Key × Val)} {σ : Val → String}
    {τ : String → String} (ht : dlookup (Key.str "Conditions") t = some (.dict conds)) {v : Val} {b : Bool}
    (h : Evals OneSided conds σ v b) : (∀ e, Uses conds v e → τ (H e) = σ e) →
    ∀ n, RecGood H (.dict t) conds τ n v b ∧ ItemGood H (.dict t) conds τ n v b := by
  induction h with
  | @equals a b x y hp ha hb =>
    intro hτ n
    obtain ⟨e, he, hv, z, s, hu, his, hall⟩ := mkEquals_good (H := H) (τ := τ) hp ha hb hτ
    constructor
    · cases n with
      | zero => left; rfl
      | succ n =>
        right
        refine ⟨{ eq := some e }, ?_, ⟨rfl, hv, ?_, fun x hx => ⟨e, by simp [CObj.eqs, CObj.eqsAll], s,
          hall x hx ▸ his⟩⟩⟩
        · simp [processCondition, he]
        · intro e' he'
          simp only [CObj.eqs, CObj.eqsAll, List.nil_append, Option.toList_some,
            List.mem_singleton] at he'
          subst he'
          exact ⟨z, s, hu, his⟩
    · refine ⟨_, _, rfl, .inr ⟨.equals e, inflEqual e, ?_, ⟨rfl, hv, ?_, fun x hx =>
        ⟨e, by simp [CObj.eqs], s, hall x hx ▸ his⟩⟩⟩⟩
      · simp [itemStep, he]
      · intro e' he'
        simp only [CObj.eqs, List.mem_singleton] at he'
        subst he'
        exact ⟨z, s, hu, his⟩
  | @and vs f hne hvs ih =>
    intro hτ
    have hrec : ∀ n, RecGood H (.dict t) conds τ n (.dict [(.str "Fn::And", .list vs)]) (vs.all f) := by
      intro n
      cases n with
      | zero => left; rfl
      | succ n =>
        have := processItems_good (infl := []) (acc := []) (n := n) (tmpl := .dict t) (H := H)
          (conds := conds) (τ := τ) (f := f) vs
          (fun v hv => (ih v hv (fun e he => hτ e (.inside (by simp) hv he)) n).2)
        unfold RecGood
        simp only [processCondition, if_true, processFunction, pyIterVal]
        rcases this with this | ⟨os, this, gl⟩
        · left; rw [this]; rfl
        · right
          rw [List.nil_append] at this
          refine ⟨{ and := os }, by rw [this]; rfl, ?_⟩
          have hos : os ≠ [] := by
            intro h
            have := gl.length
            rw [h] at this
            exact hne (List.length_eq_zero_iff.1 this.symm)
          obtain ⟨o, os', rfl⟩ := List.exists_cons_of_ne_nil hos
          refine ⟨?_, ?_, ?_, ?_⟩
          · rw [CObj.complete, completeAll_eq, gl.complete]
          · rw [CObj.ev, evAll_eq, gl.all]
          · intro e he
            simp only [CObj.eqs, Option.toList_none, List.append_nil,
              show CObj.eqsAll [] = [] from rfl] at he
            obtain ⟨v, hv, x, s, hu, his⟩ := gl.eqs e he
            exact ⟨x, s, .inside (by simp) hv hu, his⟩
          · intro x hx
            obtain ⟨v, hv, hx⟩ := uses_list (by simp) hx
            simp only [CObj.eqs, Option.toList_none, List.append_nil,
              show CObj.eqsAll [] = [] from rfl]
            exact gl.used v hv x hx
    intro n
    exact ⟨hrec n, item_of_rec (by simp) (by simp) (hrec n)⟩
  | @or vs f hne hvs ih =>
    intro hτ
    have hrec : ∀ n, RecGood H (.dict t) conds τ n (.dict [(.str "Fn::Or", .list vs)]) (vs.any f) := by
      intro n
      cases n with
      | zero => left; rfl
      | succ n =>
        have := processItems_good (infl := []) (acc := []) (n := n) (tmpl := .dict t) (H := H)
          (conds := conds) (τ := τ) (f := f) vs
          (fun v hv => (ih v hv (fun e he => hτ e (.inside (by simp) hv he)) n).2)
        unfold RecGood
        simp only [processCondition, if_true, processFunction, pyIterVal]
        rw [if_neg (by simp)]
        rcases this with this | ⟨os, this, gl⟩
        · left; rw [this]; rfl
        · right
          rw [List.nil_append] at this
          refine ⟨{ or := os }, by rw [this]; rfl, ?_⟩
          have hos : os ≠ [] := by
            intro h
            have := gl.length
            rw [h] at this
            exact hne (List.length_eq_zero_iff.1 this.symm)
          obtain ⟨o, os', rfl⟩ := List.exists_cons_of_ne_nil hos
          refine ⟨?_, ?_, ?_, ?_⟩
          · rw [CObj.complete, completeAll_eq, gl.complete]
          · rw [CObj.ev, evAny_eq, gl.any]
          · intro e he
            simp only [CObj.eqs, Option.toList_none, List.append_nil, List.nil_append,
              show CObj.eqsAll [] = [] from rfl] at he
            obtain ⟨v, hv, x, s, hu, his⟩ := gl.eqs e he
            exact ⟨x, s, .inside (by simp) hv hu, his⟩
          · intro x hx
            obtain ⟨v, hv, hx⟩ := uses_list (by simp) hx
            simp only [CObj.eqs, Option.toList_none, List.append_nil, List.nil_append,
              show CObj.eqsAll [] = [] from rfl]
            exact gl.used v hv x hx
    intro n
    exact ⟨hrec n, item_of_rec (by simp) (by simp) (hrec n)⟩
  | @not v b hv ih =>
    intro hτ
    have hrec : ∀ n, RecGood H (.dict t) conds τ n (.dict [(.str "Fn::Not", .list [v])]) (!b) := by
      intro n
      cases n with
      | zero => left; rfl
      | succ n =>
        have := processItems_good (infl := []) (acc := []) (n := n) (tmpl := .dict t) (H := H)
          (conds := conds) (τ := τ) (f := fun _ => b) [v]
          (fun w hw => by
            rw [List.mem_singleton] at hw
            subst hw
            exact (ih (fun e he => hτ e (.inside (by simp) (by simp) he)) n).2)
        unfold RecGood
        simp only [processCondition, if_true, processFunction, pyIterVal]
        rw [if_neg (by simp), if_neg (by simp)]
        rcases this with this | ⟨os, this, gl⟩
        · left; rw [this]; rfl
        · right
          rw [List.nil_append] at this
          refine ⟨{ not := os }, by rw [this]; rfl, ?_⟩
          obtain ⟨o, rfl⟩ : ∃ o, os = [o] := List.length_eq_one_iff.1 gl.length
          have hc := gl.complete
          have ha := gl.all
          simp only [List.all_cons, List.all_nil, Bool.and_true] at hc ha
          refine ⟨?_, ?_, ?_, ?_⟩
          · rw [CObj.complete, hc]
          · rw [CObj.ev, ha]
          · intro e he
            simp only [CObj.eqs, Option.toList_none, List.append_nil, List.nil_append,
              show CObj.eqsAll [] = [] from rfl] at he
            obtain ⟨v, hv, x, s, hu, his⟩ := gl.eqs e he
            exact ⟨x, s, .inside (by simp) hv hu, his⟩
          · intro x hx
            obtain ⟨v, hv, hx⟩ := uses_list (by simp) hx
            simp only [CObj.eqs, Option.toList_none, List.append_nil, List.nil_append,
              show CObj.eqsAll [] = [] from rfl]
            exact gl.used v hv x hx
    intro n
    exact ⟨hrec n, item_of_rec (by simp) (by simp) (hrec n)⟩
  | @named name v b hl hv ih =>
    intro hτ n
    have ih' := ih (fun e he => hτ e (.named hl he))
    have hlk := lookup_named ht hl
    constructor
    · cases n with
      | zero => left; rfl
      | succ n =>
        unfold RecGood
        simp only [processCondition, hlk]
        rw [if_neg (by simp), if_neg (by simp), if_neg (by simp), if_neg (by simp), if_pos trivial]
        rcases hr : processCondition H (.dict t) n v with ⟨i, r⟩
        rcases (ih' n).1 with h | ⟨p, h, g⟩
        · left
          rw [hr] at h
          simp only at h
          subst h
          rfl
        · right
          rw [hr] at h
          simp only at h
          subst h
          refine ⟨p, rfl, ⟨g.complete, g.ev, ?_, fun x hx => g.used x (uses_named hl hx)⟩⟩
          intro e he
          obtain ⟨x, s, hu, his⟩ := g.eqs e he
          exact ⟨x, s, .named hl hu, his⟩
    · refine ⟨_, _, rfl, ?_⟩
      unfold itemStep
      rw [if_neg (by simp), if_pos rfl]
      simp only [condByName, hlk]
      rcases hr : processCondition H (.dict t) n v with ⟨i, r⟩
      rcases (ih' n).1 with h | ⟨p, h, g⟩
      · left
        rw [hr] at h
        simp only at h
        subst h
        rfl
      · right
        rw [hr] at h
        simp only at h
        subst h
        refine ⟨_, _, rfl, ⟨g.complete, g.ev, ?_, fun x hx => g.used x (uses_named hl hx)⟩⟩
        intro e he
        obtain ⟨x, s, hu, his⟩ := g.eqs e he
        exact ⟨x, s, .named hl hu, his⟩

end CfnLint
