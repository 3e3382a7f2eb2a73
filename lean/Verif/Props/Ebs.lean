import Verif.Spec.Ebs
import Verif.Lemmas.CheckAll
import Verif.Props.Elb
import Verif.Props.Regex
/-
C114: devices, sources of security groups and domains for validation.
-/
namespace CfnLint
open Spec Rx

/-! ### devices -/

theorem ephemeral_words {w : List Char} (h : Lang (.alt dig (.alt (.seq (chr '1') dig) (.seq (chr '2') (rng '0' '3')))) w) : w ∈ decimals 24 := by
  simp only [lang_alt, lang_seq, lang_chr, lang_dig, lang_digits (show '0' ≤ '0' by decide) (show '3' ≤ '9' by decide)] at h
  rcases h with ⟨a, ha, rfl⟩ | ⟨_, _, rfl, ⟨a, ha, rfl⟩, rfl⟩ | ⟨_, _, rfl, ⟨a, ha, ha', rfl⟩, rfl⟩
  all_goals (revert a; decide +kernel)

theorem lang_ephemeral {l : List Char} : Lang ephemeralRx l ↔ EphemeralName l := by
  unfold ephemeralRx EphemeralName
  rw [lang_seq]
  have hw : ∀ w, Lang (.alt dig (.alt (.seq (chr '1') dig) (.seq (chr '2') (rng '0' '3')))) w ↔ ∃ n, n ≤ 23 ∧ Decimal n w := by
    intro w
    rw [← mem_decimals]
    refine ⟨ephemeral_words, fun h => lang_of_rest ?_⟩
    revert w
    decide +kernel
  constructor
  · rintro ⟨u, v, h1, h2, rfl⟩
    rw [lang_word] at h1
    subst h1
    obtain ⟨n, h3, h4⟩ := (hw _).1 h2
    exact ⟨n, v, h3, h4, rfl⟩
  · rintro ⟨n, w, h3, h4, rfl⟩
    exact ⟨_, w, lang_word.2 rfl, (hw w).2 ⟨n, h3, h4⟩, rfl⟩

theorem ephemeral_iff {s : String} : ephemeralRx.matchesAll s = true ↔ MaybeBreak EphemeralName s := by
  rw [matchesAll_iff]
  unfold MaybeBreak
  simp only [lang_ephemeral]

/-- the values found for a key, and whether the key is set -/
theorem keyValues {n : Nat} {kvs : List (Key × Val)} (hnd : (kvs.map Prod.fst).Nodup) (key : String)
    (hnull : ∀ v, (Key.str key, v) ∈ kvs → v ≠ .none → ∀ q, ¬ Leaf v q .none) :
    ∃ r, getValues (n + 2) ((dlookup (Key.str key) kvs).getD .none) [] = .ok r ∧ (r.isSome = true ↔ IsSet kvs key) ∧
      ∀ p w, (p, w) ∈ r.getD [] ↔ ∃ v, (Key.str key, v) ∈ kvs ∧ v ≠ .none ∧ PropValue v p w := by
  have hv : ∀ v, (Key.str key, v) ∈ kvs ↔ dlookup (Key.str key) kvs = some v := fun v => ⟨dlookup_of_mem hnd, dlookup_mem⟩
  unfold IsSet
  simp only [hv] at hnull ⊢
  cases hd : dlookup (Key.str key) kvs with
  | none => exact ⟨none, rfl, by simp, by simp⟩
  | some v =>
    by_cases h0 : v = .none
    · subst h0
      exact ⟨none, rfl, by simp, by simp⟩
    · obtain ⟨r, h1, -, h2⟩ := getValues_spec (n := n) (path := []) h0 (hnull v hd h0)
      refine ⟨some r, h1, by simp [h0], fun p w => ?_⟩
      simp only [Option.getD_some, h2, List.nil_append, Option.some.injEq]
      constructor
      · rintro ⟨q, rfl, h⟩
        exact ⟨v, rfl, h0, h⟩
      · rintro ⟨v', rfl, -, h⟩
        exact ⟨p, rfl, h⟩

theorem mem_volumeFault {g : Bool} {path m : Path} {v : Val} : m ∈ volumeFault g path v ↔
    (v = .str "io1" ∧ g = false ∧ m = path ++ [.str "VolumeType"]) ∨ (∃ s, v = .str s ∧ s ≠ "io1" ∧ s ≠ "" ∧ g = true ∧ m = path ++ [.str "Iops"]) := by
  unfold volumeFault
  split
  · rename_i s
    by_cases h1 : s = "io1"
    · subst h1
      cases g <;> simp
    · by_cases h2 : s = ""
      · subst h2
        simp
      · cases g <;> simp [h1, h2]
  · rename_i hne
    simp only [List.not_mem_nil, false_iff]
    rintro (⟨rfl, -⟩ | ⟨s, rfl, -⟩)
    · exact hne _ rfl
    · exact hne _ rfl

theorem none_propValue {q : Path} {s : String} : ¬ PropValue .none q (.str s) := by
  rintro ⟨q', u, h, h'⟩
  cases h with
  | here =>
    rcases h' with ⟨-, -, h⟩ | ⟨xs, i, x, r, h, -⟩ <;> cases h

/-- C114: the findings of a device are its faults. -/
theorem C114_device (n : Nat) {kvs : List (Key × Val)} (hw : (Val.dict kvs).WF) (hp : DevicePlain (.dict kvs)) (path : Path) (i : Nat) :
    ∃ l, deviceCheck (n + 2) path (.dict kvs, i) = .ok l ∧ ∀ m, m ∈ l ↔ ∃ r, DeviceFault kvs r ∧ m = path ++ .int i :: r := by
  obtain ⟨kvs', e, hp1, hp2⟩ := hp
  cases e
  have hw' := hw
  rw [Val.WF] at hw'
  have hnd := hw'.1
  have hg := given_iff hnd "VirtualName"
  unfold deviceCheck
  simp only [Val.getD]
  by_cases hn : ((dlookup (Key.str "VirtualName") kvs).getD .none).truthy = true
  · rw [if_pos hn]
    have hgn := hg.1 hn
    cases hd : dlookup (Key.str "VirtualName") kvs with
    | none => rw [hd] at hn; cases hn
    | some v =>
      rw [hd] at hn
      obtain ⟨s, rfl⟩ := hp1 v (dlookup_mem hd) hn
      have hs : s ≠ "" := by
        rintro rfl
        simp [Val.truthy] at hn
      refine ⟨_, rfl, fun m => ?_⟩
      constructor
      · intro h
        by_cases hm : ephemeralRx.matchesAll s = true
        · rw [if_pos hm] at h
          cases h
        · rw [if_neg hm] at h
          rw [List.mem_singleton] at h
          exact ⟨_, .name (dlookup_mem hd) hs (fun h => hm (ephemeral_iff.2 h)), h⟩
      · rintro ⟨r, h, rfl⟩
        cases h with
        | name h1 h2 h3 =>
          rw [dlookup_of_mem hnd h1] at hd
          cases hd
          rw [if_neg (fun h => h3 (ephemeral_iff.1 h))]
          simp
        | missing h => exact absurd hgn h
        | extra h => exact absurd hgn h
  · rw [if_neg hn]
    have hgn : ¬ Given kvs "VirtualName" := fun h => hn (hg.2 h)
    have hno : ∀ s, (Key.str "VirtualName", Val.str s) ∈ kvs → s ≠ "" → False := by
      intro s h1 h2
      exact hgn ⟨_, h1, by simp [Val.truthy, h2]⟩
    cases hd : dlookup (Key.str "Ebs") kvs with
    | none =>
      refine ⟨[], by simp [Val.truthy], fun m => ?_⟩
      simp only [List.not_mem_nil, false_iff]
      rintro ⟨r, h, -⟩
      cases h with
      | name h1 h2 => exact hno _ h1 h2
      | missing _ h => rw [dlookup_of_mem hnd h] at hd; cases hd
      | extra _ h => rw [dlookup_of_mem hnd h] at hd; cases hd
    | some v =>
      by_cases hdict : ∃ es, v = .dict es
      · obtain ⟨es, rfl⟩ := hdict
        have hmem := dlookup_mem hd
        have hes : (es.map Prod.fst).Nodup := by
          have := at_wf (.key hmem .here) hw
          rw [Val.WF] at this
          exact this.1
        by_cases hem : es = []
        · subst hem
          refine ⟨[], by simp [Val.truthy], fun m => ?_⟩
          simp only [List.not_mem_nil, false_iff]
          rintro ⟨r, h, -⟩
          cases h with
          | name h1 h2 => exact hno _ h1 h2
          | missing _ h h' => rw [dlookup_of_mem hnd h] at hd; cases hd; cases h'
          | extra _ h h' => rw [dlookup_of_mem hnd h] at hd; cases hd; cases h'
        · have ht : (Val.dict es).truthy = true := by
            cases es with
            | nil => exact absurd rfl hem
            | cons => rfl
          obtain ⟨r1, a1, -, a3⟩ := keyValues (n := n) hes "VolumeType" (fun v => hp2 es v "VolumeType" hmem)
          obtain ⟨r2, b1, b2, -⟩ := keyValues (n := n) hes "Iops" (fun v => hp2 es v "Iops" hmem)
          refine ⟨_, by simp only [Option.getD_some, ht, if_true, ebsCheck, a1, b1]; rfl, fun m => ?_⟩
          simp only [List.mem_flatMap, mem_volumeFault]
          constructor
          · rintro ⟨⟨p, w⟩, h, ⟨rfl, h2, rfl⟩ | ⟨s, rfl, h2, h3, h4, rfl⟩⟩
            · obtain ⟨v, c1, c2, c3⟩ := (a3 _ _).1 h
              exact ⟨_, .missing hgn hmem c1 c3 (fun h => by rw [b2.2 h] at h2; cases h2), by simp⟩
            · obtain ⟨v, c1, c2, c3⟩ := (a3 _ _).1 h
              exact ⟨_, .extra hgn hmem c1 c3 h2 h3 (b2.1 h4), by simp⟩
          · rintro ⟨r, h, rfl⟩
            cases h with
            | name h1 h2 => exact absurd h2 (fun h2 => hno _ h1 h2)
            | missing _ h c1 c3 h4 =>
              rw [dlookup_of_mem hnd h] at hd
              cases hd
              refine ⟨(_, _), (a3 _ _).2 ⟨_, c1, ?_, c3⟩, .inl ⟨rfl, ?_, by simp⟩⟩
              · rintro rfl
                exact none_propValue c3
              · cases hr : r2.isSome with
                | false => rfl
                | true => exact absurd (b2.1 hr) h4
            | extra _ h c1 c3 h4 h5 h6 =>
              rw [dlookup_of_mem hnd h] at hd
              cases hd
              refine ⟨(_, _), (a3 _ _).2 ⟨_, c1, ?_, c3⟩, .inr ⟨_, rfl, h4, h5, b2.2 h6, by simp⟩⟩
              rintro rfl
              exact none_propValue c3
      · refine ⟨[], ?_, fun m => ?_⟩
        · simp only [Option.getD_some]
          split
          · unfold ebsCheck
            split
            · exact absurd ⟨_, rfl⟩ hdict
            · rfl
          · rfl
        · simp only [List.not_mem_nil, false_iff]
          rintro ⟨r, h, -⟩
          cases h with
          | name h1 h2 => exact hno _ h1 h2
          | missing _ h h' => rw [dlookup_of_mem hnd h] at hd; cases hd; exact hdict ⟨_, rfl⟩
          | extra _ h h' => rw [dlookup_of_mem hnd h] at hd; cases hd; exact hdict ⟨_, rfl⟩

/-- the list of devices of a resource -/
def DeviceList (t : Val) (name : Key) (xs : List Val) : Prop :=
  ∃ ty kvs, (ty = "AWS::EC2::Instance" ∨ ty = "AWS::AutoScaling::LaunchConfiguration") ∧ HasProps t ty name (.dict kvs) ∧
    (Key.str "BlockDeviceMappings", Val.list xs) ∈ kvs

/-- C114: the findings are the faults of all devices of instances and launch configurations, each at its place. -/
theorem C114_devices (n : Nat) {t : Val} (hw : t.WF)
    (ho : ∀ ty name props, (ty = "AWS::EC2::Instance" ∨ ty = "AWS::AutoScaling::LaunchConfiguration") → HasProps t ty name props → props.truthy = true → ∃ kvs, props = .dict kvs)
    (hp : ∀ name xs, DeviceList t name xs → ∀ x ∈ xs, DevicePlain x) :
    ∃ l, ebsRule (n + 2) t = .ok l ∧ ∀ p, p ∈ l ↔ ∃ name xs, ∃ i : Nat, ∃ kvs r, DeviceList t name xs ∧ xs[i]? = some (.dict kvs) ∧ DeviceFault kvs r ∧
      p = [.str "Resources", name, .str "Properties", .str "BlockDeviceMappings"] ++ .int i :: r := by
  obtain ⟨rs, h1, h2⟩ := oneKeyProps hw "AWS::EC2::Instance" "BlockDeviceMappings" n (fun name props => ho _ name props (.inl rfl))
  obtain ⟨rs', h3, h4⟩ := oneKeyProps hw "AWS::AutoScaling::LaunchConfiguration" "BlockDeviceMappings" n (fun name props => ho _ name props (.inr rfl))
  have hrs : ∀ p w, (p, w) ∈ rs ++ rs' ↔ ∃ ty name kvs, (ty = "AWS::EC2::Instance" ∨ ty = "AWS::AutoScaling::LaunchConfiguration") ∧ HasProps t ty name (.dict kvs) ∧
      (Key.str "BlockDeviceMappings", w) ∈ kvs ∧ p = [.str "Resources", name, .str "Properties", .str "BlockDeviceMappings"] := by
    intro p w
    rw [List.mem_append, h2, h4]
    constructor
    · rintro (⟨name, kvs, a, b, c⟩ | ⟨name, kvs, a, b, c⟩)
      · exact ⟨_, name, kvs, .inl rfl, a, b, c⟩
      · exact ⟨_, name, kvs, .inr rfl, a, b, c⟩
    · rintro ⟨ty, name, kvs, rfl | rfl, a, b, c⟩
      · exact .inl ⟨name, kvs, a, b, c⟩
      · exact .inr ⟨name, kvs, a, b, c⟩
  obtain ⟨l, h5, h6⟩ := collectM_spec (as := rs ++ rs') (f := devicesOf (n + 2))
    (P := fun r p => ∃ xs, ∃ i : Nat, ∃ kvs q, r.2 = .list xs ∧ xs[i]? = some (.dict kvs) ∧ DeviceFault kvs q ∧ p = r.1 ++ .int i :: q) (by
      rintro ⟨p, w⟩ hm
      obtain ⟨ty, name, kvs, h0, g1, g2, rfl⟩ := (hrs p w).1 hm
      unfold devicesOf
      split
      · rename_i xs he
        cases he
        have hwl := at_wf (at_append (hasProps_at g1) (.key g2 .here)) hw
        obtain ⟨l, g5, g6⟩ := collectM_spec (as := xs.zipIdx) (f := deviceCheck (n + 2) [.str "Resources", name, .str "Properties", .str "BlockDeviceMappings"])
          (P := fun xi m => ∃ es q, xi.1 = .dict es ∧ DeviceFault es q ∧ m = [.str "Resources", name, .str "Properties", .str "BlockDeviceMappings"] ++ .int xi.2 :: q) (by
            rintro ⟨x, i⟩ hx
            rw [List.mem_zipIdx_iff_getElem?] at hx
            have hpl := hp name xs ⟨ty, kvs, h0, g1, g2⟩ x (List.mem_of_getElem? hx)
            obtain ⟨es, e, -⟩ := id hpl
            subst e
            have hwx := at_wf (.idx hx .here) hwl
            obtain ⟨l, k1, k2⟩ := C114_device n hwx hpl [.str "Resources", name, .str "Properties", .str "BlockDeviceMappings"] i
            refine ⟨l, k1, fun m => ?_⟩
            rw [k2]
            constructor
            · rintro ⟨q, a, b⟩
              exact ⟨es, q, rfl, a, b⟩
            · rintro ⟨es', q, e, a, b⟩
              cases e
              exact ⟨q, a, b⟩)
        refine ⟨l, g5, fun m => ?_⟩
        rw [g6]
        constructor
        · rintro ⟨⟨x, i⟩, hx, es, q, rfl, a, b⟩
          rw [List.mem_zipIdx_iff_getElem?] at hx
          exact ⟨xs, i, es, q, rfl, hx, a, b⟩
        · rintro ⟨xs', i, es, q, e, hx, a, b⟩
          cases e
          exact ⟨(_, i), List.mem_zipIdx_iff_getElem?.2 hx, es, q, rfl, a, b⟩
      · rename_i hne
        refine ⟨[], rfl, fun m => ?_⟩
        simp only [List.not_mem_nil, false_iff]
        rintro ⟨xs, i, es, q, e, -⟩
        exact hne _ e)
  refine ⟨l, by simp only [ebsRule, h1, h3, h5], fun p => ?_⟩
  rw [h6]
  constructor
  · rintro ⟨⟨p', w⟩, hm, xs, i, es, q, e, hx, a, rfl⟩
    obtain ⟨ty, name, kvs, h0, g1, g2, rfl⟩ := (hrs _ _).1 hm
    cases e
    exact ⟨name, xs, i, es, q, ⟨ty, kvs, h0, g1, g2⟩, hx, a, rfl⟩
  · rintro ⟨name, xs, i, es, q, ⟨ty, kvs, h0, g1, g2⟩, hx, a, rfl⟩
    exact ⟨(_, _), (hrs _ _).2 ⟨ty, name, kvs, h0, g1, g2, rfl⟩, xs, i, es, q, rfl, hx, a, rfl⟩

example : DeviceFault [(.str "VirtualName", .str "ephemeral24")] [.str "VirtualName"] :=
  .name (s := "ephemeral24") (by simp) (by decide) (by rw [← ephemeral_iff]; decide +kernel)
example : DevicePlain (.dict [(.str "VirtualName", .str "ephemeral24")]) :=
  ⟨_, rfl, fun v h _ => by simp at h; exact ⟨_, h⟩, fun es v key h => by simp at h⟩

/-- C114: the name of a volume that is no text ends the rule with an error. -/
theorem C114_name_raises (fuel : Nat) {kvs : List (Key × Val)} (hw : (Val.dict kvs).WF) {v : Val} (hv : (Key.str "VirtualName", v) ∈ kvs) (ht : v.truthy = true)
    (hs : ∀ s, v ≠ .str s) (path : Path) (i : Nat) : ∃ e, deviceCheck fuel path (.dict kvs, i) = .error e := by
  rw [Val.WF] at hw
  unfold deviceCheck
  simp only [Val.getD, dlookup_of_mem hw.1 hv, Option.getD_some, ht, if_true]
  exact ⟨_, rfl⟩

example : ∃ e, deviceCheck 9 [] (.dict [(.str "VirtualName", .dict [(.str "Ref", .str "Name")])], 0) = .error e :=
  C114_name_raises 9 (by simp [Val.WF, Val.WFDict]) (List.mem_cons_self ..) rfl (by simp) [] 0

/-- C114, as one would want it: `Iops` is found wrong only where it has a value. -/
def C114_statement : Prop := ∀ n kvs path i l es v, (Val.dict kvs).WF → deviceCheck (n + 2) path (.dict kvs, i) = .ok l →
  path ++ [.int i, .str "Ebs", .str "Iops"] ∈ l → (Key.str "Ebs", Val.dict es) ∈ kvs → (Key.str "Iops", v) ∈ es → ∃ q w, PropValue v q w

/-- C114: a reference to `AWS::NoValue` counts as a value. -/
theorem C114_violated : ¬ C114_statement := by
  intro h
  obtain ⟨q, w, q', u, hl, -⟩ := h 1 [(.str "Ebs", .dict [(.str "VolumeType", .str "gp2"), (.str "Iops", noValue)])] [] 0 [[.int 0, .str "Ebs", .str "Iops"]]
    [(.str "VolumeType", .str "gp2"), (.str "Iops", noValue)] noValue (by simp [Val.WF, Val.WFDict, noValue]) rfl (List.mem_singleton.2 rfl) (by simp) (by simp)
  generalize hg : noValue = x at hl
  cases hl with
  | here _ h => exact h hg.symm
  | left => simp [noValue, fnIf] at hg
  | right => simp [noValue, fnIf] at hg

/-! ### sources of security groups -/

theorem ingressCheck_spec {es : List (Key × Val)} (hw : (Val.dict es).WF) (vpc : Bool) (path : Path) :
    ∃ l, ingressCheck vpc (.dict es) path = .ok l ∧ ∀ m, m ∈ l ↔ ∃ key, wrongSource (vpc = true) key ∧ Given es key ∧ m = path ++ [.str key] := by
  rw [Val.WF] at hw
  unfold ingressCheck wrongSource
  simp only [Val.getD]
  refine ⟨_, rfl, fun m => ?_⟩
  cases vpc
  · by_cases h : Given es "SourceSecurityGroupId"
    · simp only [Bool.false_eq_true, if_false]
      rw [if_pos ((given_iff hw.1 _).2 h)]
      simp [h]
    · simp only [Bool.false_eq_true, if_false]
      rw [if_neg (fun h' => h ((given_iff hw.1 _).1 h'))]
      simp only [List.not_mem_nil, false_iff]
      rintro ⟨key, ⟨h1, -⟩ | ⟨-, rfl⟩, h2, -⟩
      · exact h1
      · exact h h2
  · by_cases h : Given es "SourceSecurityGroupName"
    · simp only [if_true]
      rw [if_pos ((given_iff hw.1 _).2 h)]
      simp [h]
    · simp only [if_true]
      rw [if_neg (fun h' => h ((given_iff hw.1 _).1 h'))]
      simp only [List.not_mem_nil, false_iff]
      rintro ⟨key, ⟨-, rfl⟩ | ⟨h1, -⟩, h2, -⟩
      · exact h h2
      · exact h1 trivial

theorem wrongSource_congr {p q : Prop} (h : p ↔ q) (key : String) : wrongSource p key ↔ wrongSource q key := by
  unfold wrongSource
  rw [h]

/-- C114: the findings are the sources by name in groups of a network and the sources by identity in the others. -/
theorem C114_ingress {t : Val} (hw : t.WF)
    (hg : ∀ name props, HasProps t "AWS::EC2::SecurityGroup" name props → props.truthy = true → ∃ kvs, props = .dict kvs ∧
      ∀ xs, (Key.str "SecurityGroupIngress", Val.list xs) ∈ kvs → ∀ x ∈ xs, ∃ es, x = .dict es)
    (ho : ∀ name props, HasProps t "AWS::EC2::SecurityGroupIngress" name props → ∃ kvs, props = .dict kvs) :
    ∃ l, ingressRule t = .ok l ∧ ∀ p, p ∈ l ↔ IngressFault t p := by
  obtain ⟨l1, a1, a2⟩ := collectM_spec (as := resourcesOfType ["AWS::EC2::SecurityGroup"] t) (f := groupIngress)
    (P := fun nr p => ∃ kvs xs es, ∃ i : Nat, ∃ key, dlookup (Key.str "Properties") nr.2 = some (.dict kvs) ∧ (Key.str "SecurityGroupIngress", Val.list xs) ∈ kvs ∧
      xs[i]? = some (.dict es) ∧ wrongSource (Given kvs "VpcId") key ∧ Given es key ∧
      p = [.str "Resources", nr.1, .str "Properties", .str "SecurityGroupIngress", .int i, .str key]) (by
      rintro ⟨name, r⟩ hm
      unfold groupIngress
      cases hd : dlookup (Key.str "Properties") r with
      | none => exact ⟨[], by simp [Val.truthy], by simp⟩
      | some props =>
        have hP := (ofType_iff hw).1 ⟨r, hm, hd⟩
        by_cases ht : props.truthy = true
        · obtain ⟨kvs, rfl, hx⟩ := hg name props hP ht
          have hwp := at_wf (hasProps_at hP) hw
          have hnd := hwp
          rw [Val.WF] at hnd
          have hnd := hnd.1
          simp only [Option.getD_some, ht, if_true, Val.getD]
          cases hs : dlookup (Key.str "SecurityGroupIngress") kvs with
          | none =>
            refine ⟨[], by simp, fun m => ?_⟩
            simp only [List.not_mem_nil, false_iff]
            rintro ⟨kvs', xs, es, i, key, e, h, -⟩
            cases e
            rw [dlookup_of_mem hnd h] at hs
            cases hs
          | some w =>
            by_cases hl : ∃ xs, w = .list xs
            · obtain ⟨xs, rfl⟩ := hl
              have hmem := dlookup_mem hs
              have hwl := at_wf (.key hmem .here) hwp
              obtain ⟨l, g5, g6⟩ := collectM_spec (as := xs.zipIdx) (f := fun xi : Val × Nat => ingressCheck ((dlookup (Key.str "VpcId") kvs).getD .none).truthy xi.1
                  [.str "Resources", name, .str "Properties", .str "SecurityGroupIngress", .int xi.2])
                (P := fun xi m => ∃ es key, xi.1 = .dict es ∧ wrongSource (((dlookup (Key.str "VpcId") kvs).getD .none).truthy = true) key ∧ Given es key ∧
                  m = [.str "Resources", name, .str "Properties", .str "SecurityGroupIngress", .int xi.2, .str key]) (by
                  rintro ⟨x, i⟩ hxi
                  rw [List.mem_zipIdx_iff_getElem?] at hxi
                  obtain ⟨es, rfl⟩ := hx xs hmem x (List.mem_of_getElem? hxi)
                  obtain ⟨l, k1, k2⟩ := ingressCheck_spec (at_wf (.idx hxi .here) hwl) ((dlookup (Key.str "VpcId") kvs).getD .none).truthy
                    [.str "Resources", name, .str "Properties", .str "SecurityGroupIngress", .int i]
                  refine ⟨l, k1, fun m => ?_⟩
                  rw [k2]
                  constructor
                  · rintro ⟨key, b1, b2, b3⟩
                    exact ⟨es, key, rfl, b1, b2, b3⟩
                  · rintro ⟨es', key, e, b1, b2, b3⟩
                    cases e
                    exact ⟨key, b1, b2, b3⟩)
              refine ⟨l, g5, fun m => ?_⟩
              rw [g6]
              constructor
              · rintro ⟨⟨x, i⟩, hxi, es, key, rfl, b1, b2, b3⟩
                rw [List.mem_zipIdx_iff_getElem?] at hxi
                exact ⟨kvs, xs, es, i, key, rfl, hmem, hxi, (wrongSource_congr (given_iff hnd _) key).1 b1, b2, b3⟩
              · rintro ⟨kvs', xs', es, i, key, e, c1, c2, b1, b2, b3⟩
                cases e
                rw [dlookup_of_mem hnd c1] at hs
                cases hs
                exact ⟨(_, i), List.mem_zipIdx_iff_getElem?.2 c2, es, key, rfl, (wrongSource_congr (given_iff hnd _) key).2 b1, b2, b3⟩
            · refine ⟨[], ?_, fun m => ?_⟩
              · simp only [Option.getD_some]
                split
                · rename_i he
                  cases he
                · rename_i he
                  cases he
                  exact absurd ⟨_, rfl⟩ hl
                · rfl
              · simp only [List.not_mem_nil, false_iff]
                rintro ⟨kvs', xs, es, i, key, e, h, -⟩
                cases e
                rw [dlookup_of_mem hnd h] at hs
                cases hs
                exact hl ⟨_, rfl⟩
        · refine ⟨[], by simp [ht], fun m => ?_⟩
          simp only [List.not_mem_nil, false_iff]
          rintro ⟨kvs', xs, es, i, key, e, h, -⟩
          cases e
          cases kvs' with
          | nil => cases h
          | cons => exact ht rfl)
  obtain ⟨l2, b1, b2⟩ := collectM_spec (as := resourcesOfType ["AWS::EC2::SecurityGroupIngress"] t) (f := ownIngress)
    (P := fun nr p => ∃ kvs key, dlookup (Key.str "Properties") nr.2 = some (.dict kvs) ∧ wrongSource (Given kvs "GroupId") key ∧ Given kvs key ∧
      p = [.str "Resources", nr.1, .str "Properties", .str key]) (by
      rintro ⟨name, r⟩ hm
      unfold ownIngress
      cases hd : dlookup (Key.str "Properties") r with
      | none => exact ⟨[], by simp [Val.truthy, Val.getD], by simp⟩
      | some props =>
        have hP := (ofType_iff hw).1 ⟨r, hm, hd⟩
        obtain ⟨kvs, rfl⟩ := ho name props hP
        have hwp := at_wf (hasProps_at hP) hw
        have hnd := hwp
        rw [Val.WF] at hnd
        have hnd := hnd.1
        simp only [Option.getD_some, Val.getD]
        by_cases ht : (Val.dict kvs).truthy = true
        · rw [if_pos ht]
          obtain ⟨l, k1, k2⟩ := ingressCheck_spec hwp ((dlookup (Key.str "GroupId") kvs).getD .none).truthy [.str "Resources", name, .str "Properties"]
          refine ⟨l, k1, fun m => ?_⟩
          rw [k2]
          constructor
          · rintro ⟨key, c1, c2, c3⟩
            exact ⟨kvs, key, rfl, (wrongSource_congr (given_iff hnd _) key).1 c1, c2, c3⟩
          · rintro ⟨kvs', key, e, c1, c2, c3⟩
            cases e
            exact ⟨key, (wrongSource_congr (given_iff hnd _) key).2 c1, c2, c3⟩
        · rw [if_neg ht]
          refine ⟨[], rfl, fun m => ?_⟩
          simp only [List.not_mem_nil, false_iff]
          rintro ⟨kvs', key, e, -, ⟨v, h, -⟩, -⟩
          cases e
          cases kvs with
          | nil => cases h
          | cons => exact ht rfl)
  refine ⟨l1 ++ l2, by simp only [ingressRule, a1, b1], fun p => ?_⟩
  rw [List.mem_append, a2, b2]
  constructor
  · rintro (⟨⟨name, r⟩, hm, kvs, xs, es, i, key, h1, h2, h3, h4, h5, rfl⟩ | ⟨⟨name, r⟩, hm, kvs, key, h1, h4, h5, rfl⟩)
    · exact .inner ((ofType_iff hw).1 ⟨r, hm, h1⟩) h2 h3 h4 h5
    · exact .own ((ofType_iff hw).1 ⟨r, hm, h1⟩) h4 h5
  · rintro h
    cases h with
    | inner h1 h2 h3 h4 h5 =>
      obtain ⟨r, hm, h1⟩ := (ofType_iff hw).2 h1
      exact .inl ⟨(_, r), hm, _, _, _, _, _, h1, h2, h3, h4, h5, rfl⟩
    | own h1 h4 h5 =>
      obtain ⟨r, hm, h1⟩ := (ofType_iff hw).2 h1
      exact .inr ⟨(_, r), hm, _, _, h1, h4, h5, rfl⟩

/-- a group outside of networks with a source by identity -/
def exIngress : Val := .dict [(.str "Resources", .dict [(.str "G", .dict [(.str "Type", .str "AWS::EC2::SecurityGroup"),
  (.str "Properties", .dict [(.str "SecurityGroupIngress", .list [.dict [(.str "SourceSecurityGroupId", .str "sg-1")]])])])])]

example : ingressRule exIngress = .ok [[.str "Resources", .str "G", .str "Properties", .str "SecurityGroupIngress", .int 0, .str "SourceSecurityGroupId"]] := by
  rfl

/-- C114: the properties of a resource for a rule that are no dictionary end the rule with an error. -/
theorem C114_ingress_raises {t : Val} (hw : t.WF) {name : Key} {props : Val} (h : HasProps t "AWS::EC2::SecurityGroupIngress" name props) (hn : ∀ kvs, props ≠ .dict kvs) :
    ∃ e, ingressRule t = .error e := by
  obtain ⟨r, hm, hd⟩ := (ofType_iff hw).2 h
  unfold ingressRule
  split
  · exact ⟨_, rfl⟩
  · split
    · exact ⟨_, rfl⟩
    · rename_i l' hl'
      obtain ⟨l, hl⟩ := collectM_each hl' _ hm
      exfalso
      unfold ownIngress at hl
      simp only [hd, Option.getD_some] at hl
      cases props <;> simp [Val.getD] at hl
      exact hn _ rfl

/-! ### domains for validation -/

theorem inDomain_iff {d w : String} : (d = w ∨ endsWith d ("." ++ w) = true) ↔ InDomain d w := by
  unfold InDomain
  rw [endsWith_iff]
  have : ("." ++ w).toList = '.' :: w.toList := by rw [String.toList_append]; rfl
  rw [this]
  constructor
  · rintro (h | ⟨a, h⟩)
    · exact .inl h
    · exact .inr ⟨a, h.symm⟩
  · rintro (h | ⟨a, h⟩)
    · exact .inl h
    · exact .inr ⟨a, h.symm⟩

theorem optionFault_spec {kvs : List (Key × Val)} (hnd : (kvs.map Prod.fst).Nodup) (path : Path) :
    ∃ l, optionFault path (.dict kvs) = .ok l ∧ ∀ m, m ∈ l ↔ WrongOption kvs ∧ m = path ++ [.str "DomainName"] := by
  unfold optionFault
  simp only [Val.getD]
  split
  · rename_i d w hd hw'
    have h1 : (Key.str "DomainName", Val.str d) ∈ kvs := by
      cases h : dlookup (Key.str "DomainName") kvs with
      | none => rw [h] at hd; cases hd
      | some v => rw [h] at hd; cases hd; exact dlookup_mem h
    have h2 : (Key.str "ValidationDomain", Val.str w) ∈ kvs := by
      cases h : dlookup (Key.str "ValidationDomain") kvs with
      | none => rw [h] at hw'; cases hw'
      | some v => rw [h] at hw'; cases hw'; exact dlookup_mem h
    refine ⟨_, rfl, fun m => ?_⟩
    have hwr : WrongOption kvs ↔ ¬ InDomain d w := by
      constructor
      · rintro ⟨d', w', g1, g2, g3⟩
        have e1 := dlookup_of_mem hnd g1
        rw [dlookup_of_mem hnd h1] at e1
        cases e1
        have e2 := dlookup_of_mem hnd g2
        rw [dlookup_of_mem hnd h2] at e2
        cases e2
        exact g3
      · exact fun h => ⟨d, w, h1, h2, h⟩
    rw [hwr, ← inDomain_iff]
    by_cases e1 : d = w
    · rw [if_pos e1]
      simp [e1]
    · rw [if_neg e1]
      by_cases e2 : endsWith d ("." ++ w) = true
      · rw [if_pos e2]
        simp [e2]
      · rw [if_neg e2]
        simp [e1, e2]
  · rename_i hne
    refine ⟨[], rfl, fun m => ?_⟩
    simp only [List.not_mem_nil, false_iff]
    rintro ⟨⟨d, w, g1, g2, -⟩, -⟩
    exact hne d w (by rw [dlookup_of_mem hnd g1]; rfl) (by rw [dlookup_of_mem hnd g2]; rfl)

/-- C114: the findings are the options of which, in some scenario, the name is not in the domain for validation. -/
theorem C114_domains (n : Nat) {sets : Val → PyM (List (Option Scenario × Val))} {kvs : List (Key × Val)} (hnd : (kvs.map Prod.fst).Nodup)
    (hnull : ∀ v, (Key.str "DomainValidationOptions", v) ∈ kvs → v ≠ .none ∧ ∀ q, ¬ Leaf v q .none)
    (hs : ∀ v q us, (Key.str "DomainValidationOptions", v) ∈ kvs → PropValue v q (.dict us) → Known (.dict us) →
      ∃ ss, sets (.dict us) = .ok ss ∧ ∀ s ∈ ss, ∃ es, s.2 = .dict es ∧ (es.map Prod.fst).Nodup) (path : Path) :
    ∃ l, domainOptionRule sets (n + 2) (.dict kvs) path = .ok l ∧ ∀ m, m ∈ l ↔ ∃ v q us ss sc es, (Key.str "DomainValidationOptions", v) ∈ kvs ∧ PropValue v q (.dict us) ∧
      Known (.dict us) ∧ sets (.dict us) = .ok ss ∧ (sc, Val.dict es) ∈ ss ∧ WrongOption es ∧
      m = path ++ .str "DomainValidationOptions" :: (q ++ [.str "DomainName"]) := by
  obtain ⟨l, h1, h2⟩ := checkValue_given (h := { value := some (optionCheck sets) }) (path := path)
    (P := fun u p m => Known u ∧ ∃ us ss sc es, u = .dict us ∧ sets (.dict us) = .ok ss ∧ (sc, Val.dict es) ∈ ss ∧ WrongOption es ∧ m = p ++ [.str "DomainName"]) hnd hnull n (by
      intro v q u hv hq p
      apply checkOne_valueOnly
      intro hk
      unfold optionCheck
      split
      · rename_i us
        obtain ⟨ss, k1, k2⟩ := hs v q us hv hq hk
        rw [k1]
        obtain ⟨l, k3, k4⟩ := collectM_spec (as := ss) (f := fun s : Option Scenario × Val => optionFault p s.2)
          (P := fun s m => ∃ es, s.2 = .dict es ∧ WrongOption es ∧ m = p ++ [.str "DomainName"]) (by
            rintro ⟨sc, o⟩ ho
            obtain ⟨es, e, hes⟩ := k2 _ ho
            dsimp only at e
            subst e
            obtain ⟨l, j1, j2⟩ := optionFault_spec hes p
            refine ⟨l, j1, fun m => ?_⟩
            rw [j2]
            constructor
            · rintro ⟨a, b⟩
              exact ⟨es, rfl, a, b⟩
            · rintro ⟨es', e, a, b⟩
              cases e
              exact ⟨a, b⟩)
        refine ⟨l, k3, fun m => ?_⟩
        rw [k4]
        constructor
        · rintro ⟨⟨sc, o⟩, ho, es, e, a, b⟩
          dsimp only at e
          subst e
          exact ⟨us, ss, sc, es, rfl, k1, ho, a, b⟩
        · rintro ⟨us', ss', sc, es, e, k1', ho, a, b⟩
          cases e
          rw [k1] at k1'
          cases k1'
          exact ⟨_, ho, es, rfl, a, b⟩
      · rename_i hne
        refine ⟨[], rfl, fun m => ?_⟩
        simp only [List.not_mem_nil, false_iff]
        rintro ⟨us, ss, sc, es, rfl, -⟩
        exact hne _ rfl)
  refine ⟨l, h1, fun m => ?_⟩
  rw [h2]
  constructor
  · rintro ⟨v, q, u, a, b, hk, us, ss, sc, es, rfl, c, d, e, rfl⟩
    exact ⟨v, q, us, ss, sc, es, a, b, hk, c, d, e, by simp⟩
  · rintro ⟨v, q, us, ss, sc, es, a, b, hk, c, d, e, rfl⟩
    exact ⟨v, q, _, a, b, hk, us, ss, sc, es, rfl, c, d, e, by simp⟩

example : WrongOption [(.str "DomainName", .str "aexample.com"), (.str "ValidationDomain", .str "example.com")] :=
  ⟨"aexample.com", "example.com", by simp, by simp, by rw [← inDomain_iff]; decide +kernel⟩

end CfnLint
