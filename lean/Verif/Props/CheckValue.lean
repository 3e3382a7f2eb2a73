import Verif.Model.CheckValue
import Verif.Spec.CheckValue
import Verif.Props.Template
/-
Property C52: every value of a property is checked exactly once, by the check for its kind.
-/
namespace CfnLint
open Spec

/-- The checks of a rule, given by kind, none of which raises. -/
def checksOf {α : Type} (f : CheckKind → Option (Val → Path → List α)) : Checks α :=
  let g := fun k => (f k).map (fun c v p => (Except.ok (c v p) : PyM (List α)))
  { value := g .value, ref := g .ref, getAtt := g .getAtt, findInMap := g .findInMap, split := g .split,
    join := g .join, importValue := g .importValue, sub := g .sub }

/-- What the calls of a list contribute to the findings, in order. -/
def contributions {α : Type} (f : CheckKind → Option (Val → Path → List α))
    (calls : List (CheckKind × Val × Path)) : List α :=
  calls.flatMap (fun c => match f c.1 with
    | none => []
    | some g => g c.2.1 c.2.2)

/-- The full C52 statement: for every value of a property exactly the call that is due is made, once, where
the functions are those of CloudFormation. -/
def C52_statement : Prop :=
  ∀ (kvs : List (Key × Val)) (key : String) (v : Val) (path : Path),
    dlookup (Key.str key) kvs = some v → v ≠ .none →
    ∃ n calls, calls.Nodup ∧
      (∀ (f : CheckKind → Option (Val → Path → List (Val × Path))),
        checkValue n (checksOf f) (.dict kvs) key path = .ok (contributions f calls)) ∧
      ∀ k w p, (k, w, p) ∈ calls ↔ ∃ q u, PropValue v q u ∧ Due allFunctions u (path ++ .str key :: q) k w p

/-- the call made for one value -/
def callFor (v : Val) (path : Path) : Option (CheckKind × Val × Path) :=
  match v with
  | .dict [(k, arg)] =>
    match k with
    | .str name =>
      if name ∈ functionNames then (kindOf name).map (fun k => (k, arg, path ++ [.str name]))
      else some (.value, v, path)
    | .int _ => some (.value, v, path)
  | _ => some (.value, v, path)

theorem callCheck_pure {α : Type} (f : Option (Val → Path → List α)) (v : Val) (p : Path) :
    callCheck (f.map (fun c v p => (Except.ok (c v p) : PyM (List α)))) v p =
      .ok (match f with
        | none => []
        | some g => g v p) := by
  cases f <;> rfl

theorem checkOne_pure {α : Type} (f : CheckKind → Option (Val → Path → List α)) (v : Val) (path : Path) :
    checkOne (checksOf f) v path = .ok (contributions f (callFor v path).toList) := by
  have hv : ∀ w p, callCheck (checksOf f).value w p = .ok (contributions f [(.value, w, p)]) := by
    intro w p
    refine (callCheck_pure (f .value) w p).trans ?_
    simp [contributions]
  unfold checkOne callFor
  split
  · rename_i k arg
    split
    · rename_i name
      split
      · rename_i hn
        have hc : ∀ k, callCheck ((f k).map (fun c v p => (Except.ok (c v p) : PyM (List α)))) arg
            (path ++ [.str name]) = .ok (contributions f [(k, arg, path ++ [.str name])]) := by
          intro k
          rw [callCheck_pure]
          simp only [contributions, List.flatMap_cons, List.flatMap_nil, List.append_nil]
        simp only [functionNames, List.mem_cons, List.not_mem_nil, or_false] at hn
        rcases hn with rfl | rfl | rfl | rfl | rfl | rfl | rfl | rfl | rfl | rfl | rfl | rfl | rfl
        · rfl
        · exact hc .getAtt
        · rfl
        · exact hc .importValue
        · exact hc .join
        · exact hc .split
        · exact hc .findInMap
        · rfl
        · exact hc .ref
        · rfl
        · rfl
        · exact hc .sub
        · rfl
      · rename_i hn
        simp only [if_neg hn]
        exact hv _ _
    · exact hv _ _
  · rename_i hne
    split
    · exact absurd rfl (hne _ _)
    · exact hv _ _

theorem contributions_append {α : Type} (f : CheckKind → Option (Val → Path → List α))
    (a b : List (CheckKind × Val × Path)) :
    contributions f (a ++ b) = contributions f a ++ contributions f b := by
  simp [contributions]

theorem checkLoop_pure {α : Type} (f : CheckKind → Option (Val → Path → List α)) (path : Path) :
    ∀ (r : List (Path × Val)) (acc : List α), checkLoop (checksOf f) path r acc =
      .ok (acc ++ contributions f (r.filterMap (fun pv => callFor pv.2 (path ++ pv.1))))
  | [], acc => by simp [checkLoop, contributions]
  | (p, v) :: r, acc => by
    rw [checkLoop, checkOne_pure]
    dsimp only
    rw [checkLoop_pure f path r, List.filterMap_cons]
    cases h : callFor v (path ++ p) with
    | none => simp [contributions]
    | some c =>
      simp only [Option.toList_some]
      rw [show c :: List.filterMap (fun pv => callFor pv.2 (path ++ pv.1)) r =
        [c] ++ List.filterMap (fun pv => callFor pv.2 (path ++ pv.1)) r from rfl, contributions_append,
        List.append_assoc]

theorem callFor_iff (v : Val) (path : Path) (k : CheckKind) (w : Val) (p : Path) :
    callFor v path = some (k, w, p) ↔ Due functionNames v path k w p := by
  constructor
  · intro h
    unfold callFor at h
    split at h
    · split at h
      · rename_i name
        split at h
        · rename_i hn
          cases hk : kindOf name with
          | none => rw [hk] at h; cases h
          | some k' =>
            rw [hk] at h
            simp only [Option.map_some, Option.some.injEq, Prod.mk.injEq] at h
            obtain ⟨rfl, rfl, rfl⟩ := h
            exact .fn hn hk
        · rename_i hn
          simp only [Option.some.injEq, Prod.mk.injEq] at h
          obtain ⟨rfl, rfl, rfl⟩ := h
          refine .plain fun name arg hm he => ?_
          simp only [Val.dict.injEq, List.cons.injEq, Prod.mk.injEq, Key.str.injEq] at he
          exact hn (he.1.1 ▸ hm)
      · simp only [Option.some.injEq, Prod.mk.injEq] at h
        obtain ⟨rfl, rfl, rfl⟩ := h
        exact .plain fun name arg hm he => by simp at he
    · rename_i hne
      simp only [Option.some.injEq, Prod.mk.injEq] at h
      obtain ⟨rfl, rfl, rfl⟩ := h
      exact .plain fun name arg hm he => hne _ _ he
  · intro h
    cases h with
    | fn hn hk => simp [callFor, hn, hk]
    | plain hv =>
      unfold callFor
      split
      · split
        · rename_i name
          split
          · rename_i hn; exact absurd rfl (hv _ _ hn)
          · rfl
        · rfl
      · rfl

theorem kindOf_ne_value (name : String) : kindOf name ≠ some .value := by
  unfold kindOf
  split <;> simp

/-- Distinct places give distinct calls. -/
theorem due_inj {fs : List String} {base q q' : Path} {u u' : Val} {k : CheckKind} {w : Val} {p : Path}
    (h : Due fs u (base ++ q) k w p) (h' : Due fs u' (base ++ q') k w p) : q = q' := by
  cases h with
  | fn hn hk =>
    rename_i name
    generalize hp : base ++ q ++ [Key.str name] = p at h'
    cases h' with
    | fn hn' hk' =>
      have := List.append_inj' hp rfl
      exact List.append_cancel_left this.1
    | plain hv => exact absurd hk (kindOf_ne_value _)
  | plain hv =>
    generalize hp : base ++ q = p at h'
    generalize hkk : CheckKind.value = k at h'
    cases h' with
    | fn hn' hk' => subst hkk; exact absurd hk' (kindOf_ne_value _)
    | plain hv' => exact List.append_cancel_left hp

/-- The calls made for a property, for all checks at once. -/
theorem checkValue_calls (kvs : List (Key × Val)) (key : String) (v : Val) (path : Path)
    (hk : dlookup (Key.str key) kvs = some v) (h0 : v ≠ .none) (hnull : ∀ q, ¬ Leaf v q .none) (n : Nat) :
    ∃ calls : List (CheckKind × Val × Path), calls.Nodup ∧
      (∀ {α : Type} (f : CheckKind → Option (Val → Path → List α)),
        checkValue (n + 2) (checksOf f) (.dict kvs) key path = .ok (contributions f calls)) ∧
      ∀ k w p, (k, w, p) ∈ calls ↔
        ∃ q u, PropValue v q u ∧ Due functionNames u (path ++ .str key :: q) k w p := by
  obtain ⟨r, hr, hn, hm⟩ := getValues_spec (n := n) (path := []) h0 hnull
  have hm' : ∀ p w, (p, w) ∈ r ↔ PropValue v p w := by
    intro p w
    rw [hm]
    simp
  refine ⟨r.filterMap (fun pv => callFor pv.2 (path ++ [.str key] ++ pv.1)), ?_, ?_, ?_⟩
  · refine List.Pairwise.filterMap _ ?_ (List.pairwise_map.1 hn)
    rintro a a' hne b hb b' hb' rfl
    obtain ⟨k, w, p⟩ := b
    exact hne (due_inj ((callFor_iff _ _ _ _ _).1 hb) ((callFor_iff _ _ _ _ _).1 hb'))
  · intro α f
    simp only [checkValue, hk, Option.getD_some, hr]
    rw [checkLoop_pure]
    rfl
  · intro k w p
    simp only [List.mem_filterMap, callFor_iff, Prod.exists]
    constructor
    · rintro ⟨q, u, hq, hd⟩
      exact ⟨q, u, (hm' _ _).1 hq, by simpa using hd⟩
    · rintro ⟨q, u, hq, hd⟩
      exact ⟨q, u, (hm' _ _).2 hq, by simpa using hd⟩

/-- C52 for the functions the code knows and for values none of whose branches is null: the calls are made
for every value of the property, each once, to the check for its kind, with the place of the value.
Missing for the full claim: `Fn::Transform` and null branches, see below. -/
theorem C52_dispatch_partial (kvs : List (Key × Val)) (key : String) (v : Val) (path : Path)
    (hk : dlookup (Key.str key) kvs = some v) (h0 : v ≠ .none) (hnull : ∀ q, ¬ Leaf v q .none) (n : Nat) :
    ∃ calls : List (CheckKind × Val × Path), calls.Nodup ∧
      (∀ {α : Type} (f : CheckKind → Option (Val → Path → List α)),
        checkValue (n + 2) (checksOf f) (.dict kvs) key path = .ok (contributions f calls)) ∧
      ∀ k w p, (k, w, p) ∈ calls ↔
        ∃ q u, PropValue v q u ∧ Due functionNames u (path ++ .str key :: q) k w p :=
  checkValue_calls kvs key v path hk h0 hnull n

/-- C52: the place given to a check is the place of the value in the object. -/
theorem C52_places (kvs : List (Key × Val)) (key : String) (v : Val) (path : Path)
    (hk : dlookup (Key.str key) kvs = some v) {q : Path} {u : Val} (hq : PropValue v q u)
    {k : CheckKind} {w : Val} {p : Path} (hd : Due functionNames u (path ++ .str key :: q) k w p) :
    ∃ s, p = path ++ s ∧ At (.dict kvs) s w := by
  have h1 : At (.dict kvs) (.str key :: q) u := .key (dlookup_mem hk) (propValue_at hq).1
  cases hd with
  | fn hn hk2 =>
    exact ⟨.str key :: q ++ [_], by simp, at_append h1 (.key List.mem_cons_self .here)⟩
  | plain hv => exact ⟨_, rfl, h1⟩

/-- C52 does not hold: `Fn::Transform` is checked as if it were a literal value. -/
theorem C52_transform_violated : ¬ C52_statement := by
  intro h
  obtain ⟨n, calls, _, hc, hm⟩ := h [(.str "K", .dict [(.str "Fn::Transform", .none)])] "K" _ [] rfl
    (by simp)
  have hi : ¬ IsIf (.dict [(.str "Fn::Transform", .none)]) := fun ⟨x, hx⟩ => by simp at hx
  cases n with
  | zero =>
    have := hc (fun _ => none)
    simp [checkValue, getValues] at this
  | succ n =>
    have h1 := hc (fun _ => some (fun v p => [(v, p)]))
    have h2 : checkValue (n + 1) (checksOf (fun _ => some (fun v p => [(v, p)])))
        (.dict [(.str "K", .dict [(.str "Fn::Transform", .none)])]) "K" [] =
        .ok [(.dict [(.str "Fn::Transform", .none)], [.str "K"])] := by rfl
    rw [h2] at h1
    simp only [Except.ok.injEq] at h1
    have h3 : ∃ c, c ∈ calls := by
      cases calls with
      | nil => simp [contributions] at h1
      | cons c cs => exact ⟨c, List.mem_cons_self⟩
    obtain ⟨⟨k, w, p⟩, hcm⟩ := h3
    obtain ⟨q, u, hp, hd⟩ := (hm k w p).1 hcm
    obtain ⟨q', u', hl, hx⟩ := hp
    have hu : u' = .dict [(.str "Fn::Transform", .none)] := ((leaf_of_notIf hi).1 hl).2.1
    subst hu
    rcases hx with ⟨_, rfl, rfl⟩ | ⟨xs, i, x, r, hx, _⟩
    · generalize hg : Val.dict [(Key.str "Fn::Transform", Val.none)] = u at hd
      cases hd with
      | fn hn hk =>
        simp only [Val.dict.injEq, List.cons.injEq, Prod.mk.injEq, Key.str.injEq] at hg
        rw [← hg.1.1] at hk
        simp [kindOf] at hk
      | plain hv => exact hv "Fn::Transform" .none (by simp [allFunctions]) hg.symm
    · simp at hx

/-- C52 does not hold: a null branch makes `check_value` raise. -/
theorem C52_null_branch_violated : ¬ C52_statement := by
  intro h
  obtain ⟨n, calls, _, hc, _⟩ := h [(.str "K", fnIf (.str "c") .none (.str "b"))] "K" _ [] rfl
    (by simp [fnIf])
  have h1 := hc (fun _ => none)
  simp only [checkValue, dlookup, if_true, Option.getD_some] at h1
  match n with
  | 0 => simp [getValues] at h1
  | 1 => revert h1; simp [getValues, fnIf, condValues, condItem, extendAll, Except.map]
  | n + 2 =>
    rw [getValues_null (q := [.str "Fn::If", .int 1]) (by simp [fnIf])
      (.left (.here (fun ⟨x, hx⟩ => by simp at hx) (by simp [noValue])))] at h1
    cases h1

-- the hypotheses are met, and the calls are made: a literal and a reference behind a condition
example : checkValue 2 (checksOf (fun k => some (fun v p => [(k, v, p)])))
    (.dict [(.str "K", fnIf (.str "c") (.list [.str "x"]) (.dict [(.str "Ref", .str "P")]))]) "K" [.str "R"] =
    .ok [(.value, .str "x", [.str "R", .str "K", .str "Fn::If", .int 1, .int 0]),
         (.ref, .str "P", [.str "R", .str "K", .str "Fn::If", .int 2, .str "Ref"])] := by rfl

/-! ### All resources of a type -/

/-- the loop over resources collects what `check_value` gives for each -/
theorem checkResources_ok {α : Type} {fuel : Nat} {h : Checks α} {key : String} :
    ∀ {rs : List (Key × List (Key × Val))} {acc out : List α},
      checkResources fuel h key rs acc = .ok out → ∀ m, m ∈ out ↔ m ∈ acc ∨
        ∃ name r props ms, (name, r) ∈ rs ∧ dlookup (Key.str "Properties") r = some props ∧
          checkValue fuel h props key [.str "Resources", name, .str "Properties"] = .ok ms ∧ m ∈ ms
  | [], acc, out, hr, m => by
    simp only [checkResources, Except.ok.injEq] at hr
    subst hr; simp
  | (name, r) :: rest, acc, out, hr, m => by
    rw [checkResources] at hr
    split at hr
    · rename_i ht
      cases hp : dlookup (Key.str "Properties") r with
      | none => rw [hp] at ht; simp [Val.truthy] at ht
      | some props =>
        rw [hp] at hr
        simp only [Option.getD_some] at hr
        cases hc : checkValue fuel h props key [.str "Resources", name, .str "Properties"] with
        | error e => rw [hc] at hr; cases hr
        | ok ms =>
          rw [hc] at hr
          rw [checkResources_ok hr m]
          simp only [List.mem_append, List.mem_cons, Prod.mk.injEq]
          constructor
          · rintro ((ha | hb) | ⟨n', r', p', ms', h1, h2⟩)
            · exact .inl ha
            · exact .inr ⟨name, r, props, ms, .inl ⟨rfl, rfl⟩, hp, hc, hb⟩
            · exact .inr ⟨n', r', p', ms', .inr h1, h2⟩
          · rintro (ha | ⟨n', r', p', ms', ⟨rfl, rfl⟩ | h1, h2, h3, h4⟩)
            · exact .inl (.inl ha)
            · rw [hp] at h2
              cases h2
              rw [hc] at h3
              cases h3
              exact .inl (.inr h4)
            · exact .inr ⟨n', r', p', ms', h1, h2, h3, h4⟩
    · rename_i ht
      rw [checkResources_ok hr m]
      simp only [List.mem_cons, Prod.mk.injEq]
      constructor
      · rintro (ha | ⟨n', r', p', ms', h1, h2⟩)
        · exact .inl ha
        · exact .inr ⟨n', r', p', ms', .inr h1, h2⟩
      · rintro (ha | ⟨n', r', p', ms', ⟨rfl, rfl⟩ | h1, h2, h3, h4⟩)
        · exact .inl ha
        · rw [h2] at ht
          simp only [Option.getD_some] at ht
          exfalso
          have hms : ms' = [] := by
            cases p' with
            | dict kvs =>
              cases kvs with
              | nil =>
                cases fuel with
                | zero => simp [checkValue, getValues] at h3
                | succ n => simp [checkValue, dlookup, getValues] at h3; exact h3
              | cons a l => simp [Val.truthy] at ht
            | _ => simp [checkValue] at h3; first | exact h3.symm | exact h3
          rw [hms] at h4
          cases h4
        · exact .inr ⟨n', r', p', ms', h1, h2, h3, h4⟩

/-- The resource called `name` has one of the types. -/
def OfType (types : List String) (template : Val) (name : Key) (r : List (Key × Val)) : Prop :=
  ∃ top rs ty, template = .dict top ∧ dlookup (Key.str "Resources") top = some (.dict rs) ∧
    (name, Val.dict r) ∈ rs ∧ dlookup (Key.str "Type") r = some (.str ty) ∧ ty ∈ types

/-- the resources of given types -/
theorem resourcesOfType_iff {types : List String} (hty : types ≠ []) {template : Val} (name : Key) (r : List (Key × Val)) :
    (name, r) ∈ resourcesOfType types template ↔ OfType types template name r := by
  unfold resourcesOfType OfType
  cases template with
  | dict top =>
    dsimp only
    cases hl : dlookup (Key.str "Resources") top with
    | none => simp [hl]
    | some v =>
      cases v with
      | dict rs =>
        dsimp only
        simp only [List.mem_filterMap, Prod.exists]
        constructor
        · rintro ⟨k, v, hm, hv⟩
          cases v with
          | dict r' =>
            dsimp only at hv
            split at hv
            · rename_i hc
              simp only [Option.some.injEq, Prod.mk.injEq] at hv
              obtain ⟨rfl, rfl⟩ := hv
              have he : types.isEmpty = false := by simpa using hty
              simp only [he, Bool.false_and, Bool.or_false, List.any_eq_true, beq_iff_eq] at hc
              obtain ⟨ty, ht, hty⟩ := hc
              refine ⟨top, rs, ty, rfl, hl, hm, ?_, ht⟩
              cases hd : dlookup (Key.str "Type") r' with
              | none => rw [hd] at hty; simp at hty
              | some x => rw [hd] at hty; simp at hty; rw [hty]
            · cases hv
          | _ => cases hv
        · rintro ⟨top', rs', ty, h1, h2, h3, h4, h5⟩
          cases h1
          rw [hl] at h2
          cases h2
          refine ⟨name, _, h3, ?_⟩
          have : (types.any fun t => Val.str t == Val.str ty) = true :=
            List.any_eq_true.2 ⟨ty, h5, by simp⟩
          simp [h4, this]
      | _ =>
        simp only [List.not_mem_nil, false_iff]
        rintro ⟨top', rs', ty, h1, h2, _⟩
        cases h1
        rw [hl] at h2
        cases h2
  | _ =>
    simp only [List.not_mem_nil, false_iff]
    rintro ⟨top', rs', ty, h1, _⟩
    cases h1

/-- C52, for a property of all resources of given types: the findings are those of the property of each
such resource, at the place of the resource. -/
theorem C52_resources {α : Type} (fuel : Nat) (h : Checks α) (types : List String) (hty : types ≠ [])
    (key : String) (template : Val) (out : List α)
    (hr : checkResourceProperty fuel h types key template = .ok out) (m : α) :
    m ∈ out ↔ ∃ name r props ms, OfType types template name r ∧
      dlookup (Key.str "Properties") r = some props ∧
      checkValue fuel h props key [.str "Resources", name, .str "Properties"] = .ok ms ∧ m ∈ ms := by
  rw [checkResources_ok hr m]
  simp only [resourcesOfType_iff hty, List.not_mem_nil, false_or]

-- one resource of the type is checked, the other is not
example : checkResourceProperty 3 (checksOf (fun k => some (fun v p => [(k, v, p)]))) ["T"] "K"
    (.dict [(.str "Resources", .dict [
      (.str "A", .dict [(.str "Type", .str "T"), (.str "Properties", .dict [(.str "K", .int 1)])]),
      (.str "B", .dict [(.str "Type", .str "U"), (.str "Properties", .dict [(.str "K", .int 2)])])])]) =
    .ok [(.value, .int 1, [.str "Resources", .str "A", .str "Properties", .str "K"])] := by rfl

end CfnLint
