import Verif.Spec.Zones
import Verif.Lemmas.CheckAll
import Verif.Props.Relations
/-
C110: zones that are written down and references to resources with paths.
-/
namespace CfnLint
open Spec

theorem zoneOne_spec (u : Val) (p : Path) :
    ∃ l, checkOne { value := some zoneValue } u p = .ok l ∧ ∀ m, m ∈ l ↔ FixedZone u ∧ m = p := by
  by_cases hn : NoCall u
  · rw [checkOne_value _ hn]
    have hk := noCall_known.1 hn
    refine ⟨_, rfl, fun m => ?_⟩
    by_cases h : u = .str "all"
    · subst h
      simp [FixedZone]
    · rw [if_neg (by simpa using h)]
      simp [FixedZone, hk, h]
  · have hnk : ¬ Known u := fun hk => hn (noCall_known.2 hk)
    obtain ⟨name, arg, hm, rfl⟩ : ∃ name arg, name ∈ functionNames ∧ u = .dict [(.str name, arg)] := by
      unfold NoCall at hn
      simpa using hn
    rw [checkOne_call _ hm, named_ref (g := none) hm, ite_self]
    refine ⟨[], rfl, fun m => ⟨fun hm => (by cases hm), fun h => absurd h.1.1 hnk⟩⟩

/-- C110: W3010 finds exactly the zones that are written down, of all values that conditions can choose and of both properties. -/
theorem C110_zones {kvs : List (Key × Val)} (hd : (kvs.map Prod.fst).Nodup)
    (hnull : ∀ key v, key ∈ ["AvailabilityZone", "AvailabilityZones"] → (Key.str key, v) ∈ kvs → v ≠ .none ∧ ∀ q, ¬ Leaf v q .none) (n : Nat) (path : Path) :
    ∃ res, zoneRule (n + 2) (.dict kvs) path = .ok res ∧
      ∀ m, m ∈ res ↔ ∃ key v q u, key ∈ ["AvailabilityZone", "AvailabilityZones"] ∧ (Key.str key, v) ∈ kvs ∧ PropValue v q u ∧ FixedZone u ∧
        m = path ++ .str key :: q := by
  obtain ⟨l, h1, h2⟩ := checkValue_given (h := { value := some zoneValue }) (P := fun u p m => FixedZone u ∧ m = p) (key := "AvailabilityZone") (path := path)
    hd (hnull _ · (by simp)) n (fun v q u _ _ p => zoneOne_spec u p)
  obtain ⟨l', h3, h4⟩ := checkValue_given (h := { value := some zoneValue }) (P := fun u p m => FixedZone u ∧ m = p) (key := "AvailabilityZones") (path := path)
    hd (hnull _ · (by simp)) n (fun v q u _ _ p => zoneOne_spec u p)
  refine ⟨l ++ l', by unfold zoneRule; simp only [h1, h3], fun m => ?_⟩
  rw [List.mem_append, h2, h4]
  constructor
  · rintro (⟨v, q, u, h5, h6, h7, h8⟩ | ⟨v, q, u, h5, h6, h7, h8⟩)
    · exact ⟨_, v, q, u, by simp, h5, h6, h7, h8⟩
    · exact ⟨_, v, q, u, by simp, h5, h6, h7, h8⟩
  · rintro ⟨key, v, q, u, hk, h5, h6, h7, h8⟩
    simp only [List.mem_cons, List.not_mem_nil, or_false] at hk
    rcases hk with rfl | rfl
    · exact .inl ⟨v, q, u, h5, h6, h7, h8⟩
    · exact .inr ⟨v, q, u, h5, h6, h7, h8⟩

theorem getResources_nodup {t : Val} {rs : List (Key × Val)} (hw : t.WF) (h : getResources t = .ok rs) : (rs.map Prod.fst).Nodup := by
  unfold getResources at h
  cases t with
  | dict top =>
    simp only [Val.WF] at hw
    simp only [Val.getD] at h
    cases hl : dlookup (Key.str "Resources") top with
    | none =>
      rw [hl] at h
      simp only [Option.getD_none] at h
      injection h with h
      subst h
      simp
    | some sec =>
      rw [hl] at h
      simp only [Option.getD_some] at h
      have hws := wfDict_mem_cond hw.2 (dlookup_mem hl)
      split at h
      · rename_i e
        cases e
      · rename_i kvs e
        cases e
        cases h
        simp only [Val.WF] at hws
        exact (List.filter_sublist.map Prod.fst).nodup hws.1
      · cases h
        simp
  | _ => cases h

/-- C110: E3050 finds exactly the references to resources with paths, whatever the type of the resource. -/
theorem C110_refs_partial {t : Val} (hw : t.WF) {rs : List (Key × Val)} (hrs : getResources t = .ok rs)
    (hprops : ∀ k r v, TypedResource t k r → (Key.str "Properties", v) ∈ r → ∃ props, v = .dict props)
    {kvs : List (Key × Val)} (hd : (kvs.map Prod.fst).Nodup) (hnull : ∀ v, (Key.str "ServiceRole", v) ∈ kvs → v ≠ .none ∧ ∀ q, ¬ Leaf v q .none)
    (hv : ∀ v q x, (Key.str "ServiceRole", v) ∈ kvs → PropValue v q (.dict [(.str "Ref", x)]) → ∃ s, x = .str s) (n : Nat) (path : Path) :
    ∃ res, refWithPathRule t (n + 2) (.dict kvs) path = .ok res ∧
      ∀ m, m ∈ res ↔ ∃ v q u, (Key.str "ServiceRole", v) ∈ kvs ∧ PropValue v q u ∧ RefToPath t u ∧ m = path ++ .str "ServiceRole" :: (q ++ [.str "Ref"]) := by
  unfold refWithPathRule
  rw [hrs]
  obtain ⟨res, h1, h2⟩ := checkValue_given (h := { ref := some (pathRef rs) }) (P := fun u p m => RefToPath t u ∧ m = p ++ [.str "Ref"]) (path := path)
    (key := "ServiceRole") hd hnull n (fun v q u h1 h2 p => by
      obtain ⟨l, h3, h4⟩ := checkOne_refOnly (g := pathRef rs) (u := u) (p := p) (Q := fun m => RefToPath t u ∧ m = p ++ [.str "Ref"]) (by
        rintro x rfl
        obtain ⟨name, rfl⟩ := hv v q x h1 h2
        have hnd := getResources_nodup hw hrs
        have hno : (∀ r, ¬ TypedResource t (.str name) r) → pathRef rs (.str name) (p ++ [.str "Ref"]) = .ok [] := by
          intro h
          have : dlookup (Key.str name) rs = none := by
            cases hl : dlookup (Key.str name) rs with
            | none => rfl
            | some v =>
              obtain ⟨r, -, h5⟩ := (mem_getResources hw hrs _ _).1 (dlookup_mem hl)
              exact absurd h5 (h r)
          simp [pathRef, toKey, this, Val.getD, dlookup, Val.truthy]
        by_cases hr : ∃ r, TypedResource t (.str name) r
        · obtain ⟨r, hr⟩ := hr
          have hmem := (mem_getResources hw hrs (.str name) (.dict r)).2 ⟨r, rfl, hr⟩
          have hl := dlookup_of_mem hnd hmem
          have hsame : ∀ {r'}, TypedResource t (.str name) r' → r' = r := by
            intro r' h
            have := dlookup_of_mem hnd ((mem_getResources hw hrs (.str name) (.dict r')).2 ⟨r', rfl, h⟩)
            rw [hl] at this
            cases this
            rfl
          have hwr : (Val.dict r).WF := by
            obtain ⟨top, res, ty, rfl, h5, h6, -⟩ := hr
            simp only [Val.WF] at hw
            have h7 := wfDict_mem_cond hw.2 h5
            simp only [Val.WF] at h7
            exact wfDict_mem_cond h7.2 h6
          simp only [Val.WF] at hwr
          have hcalc : ∀ (x : Val), (RefToPath t (.dict [(.str "Ref", .str name)]) ↔ x.truthy = true ∧ x ≠ .str "/") →
              ∀ m, m ∈ (if x.truthy && x != .str "/" then [p ++ [.str "Ref"]] else []) ↔
                RefToPath t (.dict [(.str "Ref", .str name)]) ∧ m = p ++ [.str "Ref"] := by
            intro x hx m
            rw [hx]
            by_cases hc : x.truthy = true ∧ x ≠ .str "/"
            · rw [if_pos (by simpa using hc)]
              simp [hc]
            · rw [if_neg (by simpa using hc)]
              simp only [List.not_mem_nil, false_iff, not_and]
              exact fun h => absurd h hc
          have hpath : ∀ {props'}, (Key.str "Properties", .dict props') ∈ r → dlookup (Key.str "Properties") r = some (.dict props') :=
            fun h => dlookup_of_mem hwr.1 h
          cases hl' : dlookup (Key.str "Properties") r with
          | none =>
            refine ⟨_, by simp only [pathRef, toKey, Option.bind_some, hl, Option.getD_some, Val.getD, hl', Option.getD_none, dlookup], hcalc .none ?_⟩
            constructor
            · rintro ⟨name', r', props', y, e, h5, h6, -⟩
              cases e
              cases hsame h5
              rw [hpath h6] at hl'
              cases hl'
            · rintro ⟨h, -⟩
              cases h
          | some v =>
            have hvm := dlookup_mem hl'
            obtain ⟨props, rfl⟩ := hprops _ r v hr hvm
            have hwp := wfDict_mem_cond hwr.2 hvm
            simp only [Val.WF] at hwp
            refine ⟨_, by simp only [pathRef, toKey, Option.bind_some, hl, Option.getD_some, Val.getD, hl']; rfl, hcalc _ ?_⟩
            constructor
            · rintro ⟨name', r', props', y, e, h5, h6, h7, h8, h9⟩
              cases e
              cases hsame h5
              rw [hpath h6] at hl'
              cases hl'
              rw [dlookup_of_mem hwp.1 h7]
              exact ⟨h8, h9⟩
            · cases hy : dlookup (Key.str "Path") props with
              | none =>
                rintro ⟨h, -⟩
                cases h
              | some y => exact fun h => ⟨name, r, props, y, rfl, hr, hvm, dlookup_mem hy, h.1, h.2⟩
        · have hr' : ∀ r, ¬ TypedResource t (.str name) r := fun r h => hr ⟨r, h⟩
          refine ⟨[], hno hr', fun m => ⟨fun hm => (by cases hm), ?_⟩⟩
          rintro ⟨⟨name', r, props, y, e, h5, -⟩, -⟩
          cases e
          exact absurd h5 (hr' r))
      refine ⟨l, h3, fun m => ?_⟩
      rw [h4]
      constructor
      · exact fun h => h.2
      · rintro ⟨h, rfl⟩
        obtain ⟨name, r, props, x, rfl, h5⟩ := id h
        exact ⟨⟨_, rfl⟩, h, rfl⟩)
  refine ⟨res, h1, fun m => ?_⟩
  rw [h2]
  constructor
  · rintro ⟨v, q, u, h5, h6, h7, rfl⟩
    exact ⟨v, q, u, h5, h6, h7, by simp⟩
  · rintro ⟨v, q, u, h5, h6, h7, rfl⟩
    exact ⟨v, q, u, h5, h6, h7, by simp⟩

/-- what is asked of references: a reference is reported where the path of the resource is, for some choice of the conditions, not the root -/
def C110_statement : Prop :=
  ∀ (t : Val) (rs : List (Key × Val)), t.WF → getResources t = .ok rs → ∀ name p m l, pathRef rs (.str name) p = .ok l → m ∈ l →
    ∃ r props x q y, TypedResource t (.str name) r ∧ (Key.str "Properties", .dict props) ∈ r ∧ (Key.str "Path", x) ∈ props ∧ Leaf x q y ∧ y ≠ .str "/"

/-- a role with a path that is the root under both conditions -/
def exRole : Val :=
  .dict [(.str "Resources", .dict [(.str "R", .dict [(.str "Type", .str "AWS::IAM::Role"),
    (.str "Properties", .dict [(.str "Path", .dict [(.str "Fn::If", .list [.str "C", .str "/", .str "/"])])])])])]

/-- C110: a path that is the root under all conditions is reported. -/
theorem C110_violated : ¬ C110_statement := by
  intro h
  obtain ⟨r, props, x, q, y, ⟨top, res, ty, e, h1, h2, -⟩, h3, h4, h5, h6⟩ := h exRole _ (by simp [exRole, Val.WF, Val.WFDict, Val.WFList]) rfl "R" [] [] [[]]
    (by decide +kernel) (by simp)
  simp only [exRole, Val.dict.injEq] at e
  subst e
  simp only [List.mem_singleton, Prod.mk.injEq, true_and, Val.dict.injEq] at h1
  subst h1
  simp only [List.mem_singleton, Prod.mk.injEq, true_and, Val.dict.injEq] at h2
  subst h2
  simp only [List.mem_cons, Prod.mk.injEq, Key.str.injEq, reduceCtorEq, and_false, false_or, List.not_mem_nil, or_false, true_and, Val.dict.injEq] at h3
  subst h3
  simp only [List.mem_singleton, Prod.mk.injEq, true_and] at h4
  subst h4
  have hone : ∀ q y, Leaf (.str "/") q y → y = .str "/" := by
    intro q y hl
    generalize hv : Val.str "/" = v at hl ⊢
    cases hl with
    | here => rfl
    | left => cases hv
    | right => cases hv
  generalize hv : Val.dict [(Key.str "Fn::If", Val.list [.str "C", .str "/", .str "/"])] = v at h5
  cases h5 with
  | here hi => exact hi (by subst hv; exact ⟨_, rfl⟩)
  | left hl =>
    simp only [fnIf, Val.dict.injEq, List.cons.injEq, Prod.mk.injEq, Val.list.injEq, true_and, and_true] at hv
    obtain ⟨-, rfl, rfl⟩ := hv
    exact h6 (hone _ _ hl)
  | right hl =>
    simp only [fnIf, Val.dict.injEq, List.cons.injEq, Prod.mk.injEq, Val.list.injEq, true_and, and_true] at hv
    obtain ⟨-, rfl, rfl⟩ := hv
    exact h6 (hone _ _ hl)

/-- C110: a resource whose properties are null makes E3050 raise, once it is referred to. -/
theorem C110_null_raises {rs : List (Key × Val)} {name : String} {r : List (Key × Val)} (h : dlookup (Key.str name) rs = some (.dict r))
    (hp : dlookup (Key.str "Properties") r = some .none) (p : Path) : ∃ e, pathRef rs (.str name) p = .error e := by
  simp only [pathRef, toKey, Option.bind_some, h, Option.getD_some, Val.getD, hp]
  exact ⟨_, rfl⟩

/-- C110: the exception for `Fn::GetAZs` has no effect: the findings do not depend on the path but for its being in them. -/
theorem C110_path_only (v : Val) (p q : Path) : zoneValue v (p ++ q) = (zoneValue v q).map (fun l => l.map (p ++ ·)) := by
  unfold zoneValue
  by_cases h : v == .str "all" <;> simp [h, Except.map]

/-- the hypotheses can be met -/
example : zoneRule 2 (.dict [(.str "AvailabilityZones", .list [.str "a", .dict [(.str "Fn::GetAZs", .str "")], .str "all"])]) [] =
    .ok [[.str "AvailabilityZones", .int 0]] := by decide +kernel

example : ∃ res, zoneRule 2 (.dict [(.str "AvailabilityZone", .str "a")]) [] = .ok res ∧
      ∀ m, m ∈ res ↔ ∃ key v q u, key ∈ ["AvailabilityZone", "AvailabilityZones"] ∧ (Key.str key, v) ∈ [(Key.str "AvailabilityZone", Val.str "a")] ∧ PropValue v q u ∧
        FixedZone u ∧ m = [] ++ .str key :: q :=
  C110_zones (by simp) (by
    intro key v _ h
    simp at h
    obtain ⟨-, rfl⟩ := h
    refine ⟨by simp, fun q hl => ?_⟩
    generalize hv : Val.str "a" = v at hl
    generalize hw : Val.none = w at hl
    cases hl with
    | here => rw [← hv] at hw; cases hw
    | left => cases hv
    | right => cases hv) 0 []

example : refWithPathRule exRole 2 (.dict [(.str "ServiceRole", .dict [(.str "Ref", .str "R")])]) [] = .ok [[.str "ServiceRole", .str "Ref"]] := by decide +kernel

example : exRole.WF ∧ (∃ rs, getResources exRole = .ok rs) ∧
    ∀ k r v, TypedResource exRole k r → (Key.str "Properties", v) ∈ r → ∃ props, v = .dict props := by
  refine ⟨by simp [exRole, Val.WF, Val.WFDict, Val.WFList], ⟨_, rfl⟩, ?_⟩
  rintro k r v ⟨top, res, ty, e, h1, h2, -⟩ h
  simp only [exRole, Val.dict.injEq] at e
  subst e
  simp only [List.mem_singleton, Prod.mk.injEq, true_and, Val.dict.injEq] at h1
  subst h1
  simp only [List.mem_singleton, Prod.mk.injEq, Val.dict.injEq] at h2
  obtain ⟨-, rfl⟩ := h2
  simp at h
  exact ⟨_, h⟩

end CfnLint
