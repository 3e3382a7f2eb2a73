import Verif.Spec.Clusters
import Verif.Lemmas.Project
import Verif.Lemmas.PathConds
import Verif.Lemmas.Finds
import Verif.Lemmas.Leaves
import Verif.Props.Traverse
import Verif.Props.ResProps
import Verif.Props.NoEcho
import Verif.Props.Zones
import Verif.Props.Availability
/-
C117: classes of databases, failover of clusters.
-/
namespace CfnLint
open Spec

/-! ### E3025 -/

theorem lookup_cleaned {kvs : List (Key × Val)} (hn : (kvs.map Prod.fst).Nodup) {k : Key} {v : Val} :
    dlookup k (kvs.filter (fun kv => decide (kv.2 ≠ noValue))) = some v ↔ (k, v) ∈ kvs ∧ v ≠ noValue := by
  have hn' : ((kvs.filter (fun kv => decide (kv.2 ≠ noValue))).map Prod.fst).Nodup := hn.sublist (List.filter_sublist.map _)
  constructor
  · intro h
    have := List.mem_filter.1 (dlookup_mem h)
    exact ⟨this.1, by simpa using this.2⟩
  · rintro ⟨h1, h2⟩
    exact dlookup_of_mem hn' (List.mem_filter.2 ⟨h1, by simpa using h2⟩)

theorem defaultLicense_spec {tb : RdsTable} (h1 : ∃ es, dlookup "license-included" tb = some es) (h2 : ∃ es, dlookup "bring-your-own-license" tb = some es) (engine : String) :
    ∃ l, defaultLicense tb engine = .ok l ∧ ∀ l', DefaultLicense tb engine l' ↔ l' = l := by
  obtain ⟨es, h1⟩ := h1
  obtain ⟨es', h2⟩ := h2
  have key : ∀ l', DefaultLicense tb engine l' ↔ l' = (if dhas engine es then "license-included" else if dhas engine es' then "bring-your-own-license" else "general-public-license") := by
    intro l'
    constructor
    · intro h
      cases h with
      | included e1 e2 =>
        rw [h1] at e1
        cases e1
        rw [if_pos (dhas_iff.2 e2)]
      | own e1 e2 e3 e4 =>
        rw [h1] at e1
        cases e1
        rw [h2] at e3
        cases e3
        rw [if_neg (fun h => e2 (dhas_iff.1 h)), if_pos (dhas_iff.2 e4)]
      | free e1 e2 e3 e4 =>
        rw [h1] at e1
        cases e1
        rw [h2] at e3
        cases e3
        rw [if_neg (fun h => e2 (dhas_iff.1 h)), if_neg (fun h => e4 (dhas_iff.1 h))]
    · rintro rfl
      split
      · rename_i h
        exact .included h1 (dhas_iff.1 h)
      · rename_i h
        split
        · rename_i h'
          exact .own h1 (fun e => h (dhas_iff.2 e)) h2 (dhas_iff.1 h')
        · rename_i h'
          exact .free h1 (fun e => h (dhas_iff.2 e)) h2 (fun e => h' (dhas_iff.2 e))
  refine ⟨_, ?_, key⟩
  unfold defaultLicense
  rw [h1]
  dsimp only
  split
  · rfl
  · rw [h2]

theorem databaseOf_spec {tb : RdsTable} (h1 : ∃ es, dlookup "license-included" tb = some es) (h2 : ∃ es, dlookup "bring-your-own-license" tb = some es)
    {kvs : List (Key × Val)} (hn : (kvs.map Prod.fst).Nodup) (p : Path) :
    ∃ l, databaseOf tb (withoutNoValue (.dict kvs), p) = .ok l ∧ ∀ d, d ∈ l ↔
      d.path = p ∧ (Key.str "Engine", Val.str d.engine) ∈ kvs ∧ (Key.str "DBInstanceClass", Val.str d.cls) ∈ kvs ∧ HasLicense tb kvs d.engine d.license := by
  have hst : ∀ (k : String) (s : String), (dlookup (Key.str k) (kvs.filter (fun kv => decide (kv.2 ≠ noValue)))).getD .none = .str s ↔ (Key.str k, Val.str s) ∈ kvs := by
    intro k s
    cases hd : dlookup (Key.str k) (kvs.filter (fun kv => decide (kv.2 ≠ noValue))) with
    | none =>
      refine ⟨fun h => (by cases h), fun h => ?_⟩
      rw [(lookup_cleaned hn).2 ⟨h, by simp [noValue]⟩] at hd
      cases hd
    | some v =>
      have := (lookup_cleaned hn).1 hd
      constructor
      · rintro rfl
        exact this.1
      · intro h
        rw [(lookup_cleaned hn).2 ⟨h, by simp [noValue]⟩] at hd
        cases hd
        rfl
  unfold databaseOf withoutNoValue
  simp only [Val.getD]
  have he := hst "Engine"
  have hc := hst "DBInstanceClass"
  have hl := hst "LicenseModel"
  have hlt : (dlookup (Key.str "LicenseModel") (kvs.filter (fun kv => decide (kv.2 ≠ noValue)))).getD .none ≠ noValue ∧
      (((dlookup (Key.str "LicenseModel") (kvs.filter (fun kv => decide (kv.2 ≠ noValue)))).getD .none).truthy = false ↔
      ∀ v, (Key.str "LicenseModel", v) ∈ kvs → v.truthy = true → v = noValue) := by
    cases hd : dlookup (Key.str "LicenseModel") (kvs.filter (fun kv => decide (kv.2 ≠ noValue))) with
    | none =>
      refine ⟨by simp [noValue], fun _ v hv _ => ?_, fun _ => rfl⟩
      by_contra hne
      rw [(lookup_cleaned hn).2 ⟨hv, hne⟩] at hd
      cases hd
    | some w =>
      obtain ⟨hw1, hw2⟩ := (lookup_cleaned hn).1 hd
      refine ⟨hw2, fun ht v hv hvt => ?_, fun h => ?_⟩
      · have e := dlookup_of_mem hn hv
        rw [dlookup_of_mem hn hw1] at e
        cases e
        rw [Option.getD_some] at ht
        rw [ht] at hvt
        cases hvt
      · rw [Option.getD_some]
        by_contra ht
        exact hw2 (h w hw1 (by simpa using ht))
  generalize (dlookup (Key.str "Engine") (kvs.filter (fun kv => decide (kv.2 ≠ noValue)))).getD .none = e at he ⊢
  generalize (dlookup (Key.str "DBInstanceClass") (kvs.filter (fun kv => decide (kv.2 ≠ noValue)))).getD .none = c at hc ⊢
  generalize (dlookup (Key.str "LicenseModel") (kvs.filter (fun kv => decide (kv.2 ≠ noValue)))).getD .none = l at hl hlt ⊢
  by_cases hes : ∃ s, e = .str s
  · by_cases hcs : ∃ s, c = .str s
    · obtain ⟨es, rfl⟩ := hes
      obtain ⟨cs, rfl⟩ := hcs
      have he' : ∀ s, (Key.str "Engine", Val.str s) ∈ kvs ↔ s = es := fun s => by rw [← he]; simp [eq_comm]
      have hc' : ∀ s, (Key.str "DBInstanceClass", Val.str s) ∈ kvs ↔ s = cs := fun s => by rw [← hc]; simp [eq_comm]
      dsimp only
      unfold licenseOf
      by_cases ht : l.truthy = true
      · rw [if_pos ht]
        by_cases hls : ∃ s, l = .str s
        · obtain ⟨ls, rfl⟩ := hls
          refine ⟨_, rfl, fun d => ?_⟩
          rw [List.mem_singleton]
          constructor
          · rintro rfl
            exact ⟨rfl, (he' _).2 rfl, (hc' _).2 rfl, .given ((hl _).1 rfl) (by rintro rfl; cases ht)⟩
          · rintro ⟨h3, h4, h5, h6⟩
            obtain ⟨de, dc, dl, dp⟩ := d
            cases (he' _).1 h4
            cases (hc' _).1 h5
            dsimp only at h3 h6
            subst h3
            cases h6 with
            | given h7 _ =>
              cases (hl _).2 h7
              rfl
            | dflt h7 _ =>
              rw [hlt.2.2 h7] at ht
              cases ht
        · refine ⟨[], ?_, fun d => ?_⟩
          · cases l with
            | str s => exact absurd ⟨s, rfl⟩ hls
            | _ => rfl
          · simp only [List.not_mem_nil, false_iff]
            rintro ⟨-, -, -, h6⟩
            cases h6 with
            | given h7 _ => exact hls ⟨_, (hl _).2 h7⟩
            | dflt h7 _ =>
              rw [hlt.2.2 h7] at ht
              cases ht
      · rw [if_neg ht]
        have ht' : l.truthy = false := by simpa using ht
        obtain ⟨dl, h3, h4⟩ := defaultLicense_spec h1 h2 es
        rw [h3]
        refine ⟨_, rfl, fun d => ?_⟩
        rw [List.mem_singleton]
        constructor
        · rintro rfl
          exact ⟨rfl, (he' _).2 rfl, (hc' _).2 rfl, .dflt (hlt.2.1 ht') ((h4 _).2 rfl)⟩
        · rintro ⟨h5, h6, h7, h8⟩
          obtain ⟨de, dc, dl', dp⟩ := d
          cases (he' _).1 h6
          cases (hc' _).1 h7
          dsimp only at h5 h8
          subst h5
          cases h8 with
          | given h9 h10 =>
            rw [(hl _).2 h9] at ht'
            simp [Val.truthy] at ht'
            exact absurd ht' h10
          | dflt _ h9 =>
            cases (h4 _).1 h9
            rfl
    · refine ⟨[], ?_, fun d => ?_⟩
      · cases c with
        | str s => exact absurd ⟨s, rfl⟩ hcs
        | _ => cases e <;> rfl
      · simp only [List.not_mem_nil, false_iff]
        rintro ⟨-, -, h5, -⟩
        exact hcs ⟨_, (hc _).2 h5⟩
  · refine ⟨[], ?_, fun d => ?_⟩
    · cases e with
      | str s => exact absurd ⟨s, rfl⟩ hes
      | _ => rfl
    · simp only [List.not_mem_nil, false_iff]
      rintro ⟨-, h5, -, -⟩
      exact hes ⟨_, (he _).2 h5⟩

theorem mem_databaseCheck {tb : RdsTable} {d : Database} {region : String} {m : Path × String} :
    m ∈ databaseCheck tb d region ↔ m = (d.path ++ [.str "DBInstanceClass"], region) ∧ ∃ classes, Offered tb d.license d.engine region classes ∧ d.cls ∉ classes := by
  unfold databaseCheck Offered
  cases h1 : dlookup d.license tb with
  | none => simp
  | some es =>
    dsimp only
    cases h2 : dlookup d.engine es with
    | none => simp [h2]
    | some rs =>
      dsimp only
      cases h3 : dlookup region rs with
      | none => simp [h2, h3]
      | some cs => by_cases h4 : d.cls ∈ cs <;> simp [h2, h3, h4]

/-- C117: E3025 finds exactly the databases with a class that is not offered in a region for the engine and the licence. -/
theorem C117_sizes {tb : RdsTable} (h1 : ∃ es, dlookup "license-included" tb = some es) (h2 : ∃ es, dlookup "bring-your-own-license" tb = some es)
    {t : Val} (hw : t.WF) (regions : List String)
    (hp : ∀ name r, (name, r) ∈ resourcesOfType ["AWS::RDS::DBInstance"] t → ∃ kvs, (Key.str "Properties", Val.dict kvs) ∈ r)
    (hl : ∀ name props, HasProps t "AWS::RDS::DBInstance" name props → ∀ q u, Leaf props q u → ∃ kvs, u = .dict kvs) :
    ∃ l, instanceSizeRule tb regions t = .ok l ∧ ∀ p region, (p, region) ∈ l ↔ region ∈ regions ∧
      ∃ name props q, HasProps t "AWS::RDS::DBInstance" name props ∧ NotOffered tb region props q ∧
        p = .str "Resources" :: name :: .str "Properties" :: q ++ [.str "DBInstanceClass"] := by
  have hprops : ∀ name r, (name, r) ∈ resourcesOfType ["AWS::RDS::DBInstance"] t → ∃ kvs, dlookup (Key.str "Properties") r = some (.dict kvs) ∧ (Val.dict kvs).WF := by
    intro name r hm
    obtain ⟨kvs, hk⟩ := hp name r hm
    obtain ⟨top, rs, ty, rfl, e1, e2, e3, e4⟩ := (resourcesOfType_iff (List.cons_ne_nil _ _) name r).1 hm
    have hrw : (Val.dict r).WF := at_wf (At.key (dlookup_mem e1) (.key e2 .here)) hw
    refine ⟨kvs, dlookup_of_mem hrw.1 hk, at_wf (At.key hk .here) hrw⟩
  unfold instanceSizeRule
  obtain ⟨ds, e1, e2⟩ := collectM_spec (as := resourcesOfType ["AWS::RDS::DBInstance"] t) (f := databasesOf tb)
    (P := fun nr d => ∃ kvs q m, dlookup (Key.str "Properties") nr.2 = some (.dict kvs) ∧ Leaf (.dict kvs) q (.dict m) ∧
      d.path = .str "Resources" :: nr.1 :: .str "Properties" :: q ∧ (Key.str "Engine", Val.str d.engine) ∈ m ∧ (Key.str "DBInstanceClass", Val.str d.cls) ∈ m ∧
      HasLicense tb m d.engine d.license) (by
    rintro ⟨name, r⟩ hm
    obtain ⟨kvs, hk, hkw⟩ := hprops name r hm
    have hpr : HasProps t "AWS::RDS::DBInstance" name (.dict kvs) := (ofType_iff hw).1 ⟨r, hm, hk⟩
    unfold databasesOf
    simp only [hk, Option.getD_some, itemsSafeOf]
    obtain ⟨l, e3, e4⟩ := collectM_spec (as := itemsSafe [] kvs [.str "Resources", name, .str "Properties"]) (f := databaseOf tb)
      (P := fun wp d => ∃ q m, Leaf (.dict kvs) q (.dict m) ∧ wp = (withoutNoValue (.dict m), .str "Resources" :: name :: .str "Properties" :: q) ∧
        d.path = wp.2 ∧ (Key.str "Engine", Val.str d.engine) ∈ m ∧ (Key.str "DBInstanceClass", Val.str d.cls) ∈ m ∧ HasLicense tb m d.engine d.license) (by
      rintro ⟨w, p⟩ hwp
      obtain ⟨q, u, hq, rfl, rfl, -⟩ := (mem_itemsSafe [] kvs _ _ _ hkw).1 hwp
      obtain ⟨m, rfl⟩ := hl _ _ hpr _ _ hq
      have hmw := leaf_wf hq hkw
      obtain ⟨l, e5, e6⟩ := databaseOf_spec h1 h2 hmw.1 ([.str "Resources", name, .str "Properties"] ++ q)
      refine ⟨l, e5, fun d => ?_⟩
      rw [e6]
      constructor
      · rintro ⟨f1, f2, f3, f4⟩
        exact ⟨q, m, hq, rfl, f1, f2, f3, f4⟩
      · rintro ⟨q', m', hq', e7, f1, f2, f3, f4⟩
        rw [Prod.mk.injEq] at e7
        obtain ⟨-, e8⟩ := e7
        have : q = q' := by simpa using e8
        subst this
        have := at_det hkw (leaf_at hq) (leaf_at hq')
        cases this
        exact ⟨f1, f2, f3, f4⟩)
    refine ⟨l, e3, fun d => ?_⟩
    rw [e4]
    constructor
    · rintro ⟨wp, -, q, m, f1, rfl, f2, f3⟩
      exact ⟨kvs, q, m, rfl, f1, f2, f3⟩
    · rintro ⟨kvs', q, m, f0, f1, f2, f3⟩
      cases f0
      exact ⟨_, (mem_itemsSafe [] kvs _ _ _ hkw).2 ⟨q, _, f1, rfl, rfl, by simp [okType]⟩, q, m, f1, rfl, f2, f3⟩)
  rw [e1]
  refine ⟨_, rfl, fun p region => ?_⟩
  simp only [List.mem_flatMap, mem_databaseCheck]
  constructor
  · rintro ⟨d, hd, reg, hr, e3, classes, hc1, hc2⟩
    cases e3
    obtain ⟨⟨name, r⟩, hm, kvs, q, m, f0, f1, f2, f3, f4, f5⟩ := (e2 d).1 hd
    refine ⟨hr, name, .dict kvs, q, (ofType_iff hw).1 ⟨r, hm, f0⟩, ⟨m, d.engine, d.cls, d.license, classes, f1, f3, f4, f5, hc1, hc2⟩, ?_⟩
    rw [f2]
  · rintro ⟨hr, name, props, q, hpr, ⟨m, engine, cls, license, classes, f1, f3, f4, f5, hc1, hc2⟩, rfl⟩
    obtain ⟨r, hm, f0⟩ := (ofType_iff hw).2 hpr
    obtain ⟨kvs, f0', -⟩ := hprops name r hm
    rw [f0] at f0'
    cases f0'
    exact ⟨⟨engine, cls, license, _⟩, (e2 _).2 ⟨(name, r), hm, kvs, q, m, f0, f1, rfl, f3, f4, f5⟩, region, hr, rfl, classes, hc1, hc2⟩

/-- C117: a database without properties ends the rule with an error. -/
theorem C117_sizes_raises {tb : RdsTable} {t : Val} {regions : List String} {name : Key} {r : List (Key × Val)}
    (hm : (name, r) ∈ resourcesOfType ["AWS::RDS::DBInstance"] t) (h : Key.str "Properties" ∉ r.map Prod.fst) : ∃ e, instanceSizeRule tb regions t = .error e := by
  unfold instanceSizeRule
  cases hc : collectM (databasesOf tb) (resourcesOfType ["AWS::RDS::DBInstance"] t) with
  | error e => exact ⟨e, rfl⟩
  | ok l =>
    obtain ⟨l', h'⟩ := collectM_each hc _ hm
    unfold databasesOf at h'
    rw [dlookup_none_iff.2 h] at h'
    cases h'

/-! ### E3026 -/

mutual
theorem plainIn_eq : ∀ v : Val, Closed (fun _ => none) v → plainIn v = valueIn [] v
  | .dict [], _ => by rw [plainIn.eq_3 _ (by simp) (by simp), valueIn.eq_3 _ _ (by simp) (by simp)]
  | .dict [(k, v)], hc => by
    rw [Closed] at hc
    rw [plainIn, valueIn]
    by_cases hk : k = .str "Fn::If"
    · rw [if_pos hk] at hc
      unfold ClosedIf at hc
      split at hc
      · obtain ⟨⟨x, hx⟩, -⟩ := hc
        cases hx
      · exact hc.elim
    · rw [if_neg hk, if_neg hk]
  | .dict (_ :: _ :: _), _ => by rw [plainIn.eq_3 _ (by simp) (by simp), valueIn.eq_3 _ _ (by simp) (by simp)]
  | .list xs, hc => by
    rw [Closed] at hc
    rw [plainIn, valueIn, plainsIn_eq xs hc]
    cases valuesIn [] xs <;> rfl
  | .none, _ => by rw [plainIn.eq_3 _ (by simp) (by simp), valueIn.eq_3 _ _ (by simp) (by simp)]
  | .bool _, _ => by rw [plainIn.eq_3 _ (by simp) (by simp), valueIn.eq_3 _ _ (by simp) (by simp)]
  | .int _, _ => by rw [plainIn.eq_3 _ (by simp) (by simp), valueIn.eq_3 _ _ (by simp) (by simp)]
  | .flt _, _ => by rw [plainIn.eq_3 _ (by simp) (by simp), valueIn.eq_3 _ _ (by simp) (by simp)]
  | .str _, _ => by rw [plainIn.eq_3 _ (by simp) (by simp), valueIn.eq_3 _ _ (by simp) (by simp)]
theorem plainsIn_eq : ∀ xs : List Val, ClosedItems (fun _ => none) xs → plainsIn xs = valuesIn [] xs
  | [], _ => by rw [plainsIn, valuesIn]
  | x :: xs, hc => by
    rw [ClosedItems] at hc
    rw [plainsIn, valuesIn, plainIn_eq x hc.1, plainsIn_eq xs hc.2]
    cases valueIn [] x with
    | error e => rfl
    | ok v => cases valuesIn [] xs <;> rfl
end

theorem plainProps_eq : ∀ (l acc : List (Key × Val)), ClosedEntries (fun _ => none) l → plainProps l acc = propsIn [] l acc
  | [], acc, _ => by rw [plainProps, propsIn]
  | (k, v) :: rest, acc, hc => by
    rw [ClosedEntries] at hc
    rw [plainProps, propsIn, plainIn_eq v hc.1]
    cases valueIn [] v with
    | error e => rfl
    | ok w => exact plainProps_eq rest _ hc.2

theorem plainObject_eq (kvs : List (Key × Val)) (hc : Closed (fun _ => none) (.dict kvs)) : plainObject kvs = valueFromScenario [] (.dict kvs) := by
  match kvs, hc with
  | [], _ => rfl
  | [(k, v)], hc =>
    rw [plainObject, valueFromScenario, plainIn_eq _ hc]
    rw [Closed] at hc
    by_cases hk : k = .str "Fn::If"
    · rw [if_pos hk] at hc
      unfold ClosedIf at hc
      split at hc
      · obtain ⟨⟨x, hx⟩, -⟩ := hc
        cases hx
      · exact hc.elim
    · rw [if_neg hk] at hc
      have hce : ClosedEntries (fun _ => none) [(k, v)] := by
        rw [ClosedEntries, ClosedEntries]
        exact ⟨hc, trivial⟩
      rw [if_neg (fun h => hk h.1), if_neg (fun h => hk h.1), plainProps_eq _ _ hce]
      cases propsIn [] [(k, v)] [] <;> rfl
  | a :: b :: l, hc =>
    rw [Closed.eq_2 _ _ (by simp)] at hc
    rw [plainObject.eq_2 _ (by simp), valueFromScenario.eq_2 _ _ (by simp), plainProps_eq _ _ hc]
    cases propsIn [] (a :: b :: l) [] <;> rfl

theorem valuesUnder_spec {sc : Option Scenario} {kvs o : List (Key × Val)} (hn : (kvs.map Prod.fst).Nodup) (h : ObjectUnder sc kvs o) :
    valuesUnder sc (some (.dict kvs)) = .ok (.dict o) := by
  obtain ⟨h1, h2, h3⟩ := h
  cases sc with
  | none =>
    change plainObject kvs = _
    have e : saysOf none = Scenario.fn [] := rfl
    rw [plainObject_eq kvs h2, valueFromScenario_project [] kvs hn h1 (e ▸ h2), ← e, h3]
  | some s =>
    change valueFromScenario s (.dict kvs) = _
    have e : saysOf (some s) = Scenario.fn s := rfl
    rw [valueFromScenario_project s kvs hn h1 (e ▸ h2), ← e, h3]

theorem notThere_iff {t : Val} {p : Path} {conds : PathConds} (hw : t.WF) (hp : GoodPath t p) (hr : pathConds t p = .ok conds) {sc : Option Scenario}
    (hs : ∀ s k b, sc = some s → (k, b) ∈ s → ∃ c, k = Key.str c) : notThere conds sc = true ↔ Conflicts t p sc := by
  have hreq : ∀ c b, Requires t p c b ↔ b ∈ (dlookup (Val.str c) conds).getD [] := by
    intro c b
    obtain ⟨r', hr', hg, _, hreq⟩ := pathConds_spec hw hp
    rw [hr] at hr'
    cases hr'
    rw [← hreq, condHas_iff hg.1]
  have hne : ∀ c bs, dlookup (Val.str c) conds = some bs → bs ≠ [] := by
    intro c bs h
    obtain ⟨r', hr', hg, _, _⟩ := pathConds_spec hw hp
    rw [hr] at hr'
    cases hr'
    exact hg.2 _ (dlookup_mem h)
  unfold Conflicts
  cases sc with
  | none => simp [notThere]
  | some s =>
    unfold notThere
    rw [List.any_eq_true]
    constructor
    · rintro ⟨⟨k, b⟩, hm, h⟩
      obtain ⟨c, rfl⟩ := hs s k b rfl hm
      refine ⟨s, c, b, rfl, hm, ?_⟩
      simp only [hreq]
      change (match dlookup (Val.str c) conds with | none => false | some bs => !bs.any (fun b' => b == some b')) = true at h
      cases hd : dlookup (Val.str c) conds with
      | none =>
        rw [hd] at h
        cases h
      | some bs =>
        rw [hd] at h
        simp only [Bool.not_eq_true', List.any_eq_false, beq_iff_eq] at h
        simp only [Option.getD_some]
        exact ⟨List.exists_mem_of_ne_nil _ (hne c bs hd), h⟩
    · rintro ⟨s', c, b, e, hm, ⟨b', hb'⟩, h⟩
      cases e
      refine ⟨(.str c, b), hm, ?_⟩
      change (match dlookup (Val.str c) conds with | none => false | some bs => !bs.any (fun b' => b == some b')) = true
      simp only [hreq] at hb' h
      cases hd : dlookup (Val.str c) conds with
      | none =>
        rw [hd] at hb'
        cases hb'
      | some bs =>
        rw [hd] at h
        simp only [Bool.not_eq_true', List.any_eq_false, beq_iff_eq]
        exact h

theorem boolCompareFalse_iff {v : Val} : boolCompareFalse v = true ↔ SaysOff v := by
  cases v with
  | bool b =>
    cases b
    · exact ⟨fun _ => .bool, fun _ => rfl⟩
    · refine ⟨fun h => (by cases h), fun h => (by cases h)⟩
  | str s =>
    have := boolCompareTrue_iff (v := .str s)
    change (lower s == "true") = true ↔ _ at this
    unfold boolCompareFalse
    rw [Bool.not_eq_true', ← Bool.not_eq_true, this]
    constructor
    · exact .text
    · intro h
      cases h with
      | text h => exact h
  | _ => exact ⟨fun h => (by cases h), fun h => (by cases h)⟩

theorem atMostOne_spec {small : String → Bool} {v : Val} (h : Comparable v) : ∃ b, atMostOne small v = .ok b ∧ (b = true ↔ OneOrLess small v) := by
  rcases h with ⟨i, rfl⟩ | ⟨b, rfl⟩ | ⟨r, rfl⟩
  · refine ⟨_, rfl, ?_⟩
    rw [decide_eq_true_eq]
    exact ⟨.int, fun h => by cases h; assumption⟩
  · exact ⟨_, rfl, fun _ => .bool, fun _ => rfl⟩
  · exact ⟨_, rfl, .flt, fun h => by cases h; assumption⟩

theorem clusterFaults_spec {small : String → Bool} {g o : List (Key × Val)} (he : (Key.str "cluster-enabled", Val.str "yes") ∈ g)
    (hc : ∀ v, dlookup (Key.str "NumCacheClusters") o = some v → Comparable v) (path : Path) (sc : Option Scenario) :
    ∃ l, clusterFaults small (.dict o) path sc = .ok l ∧ ∀ m, m ∈ l ↔ ∃ key, ClusterFault small g o key ∧ m = (path ++ [.str key], sc) := by
  have hf : boolCompareFalse ((dlookup (Key.str "AutomaticFailoverEnabled") o).getD .none) = true ↔ ClusterFault small g o "AutomaticFailoverEnabled" := by
    rw [boolCompareFalse_iff]
    cases hd : dlookup (Key.str "AutomaticFailoverEnabled") o with
    | none =>
      refine ⟨fun h => (by cases h), fun h => ?_⟩
      generalize hg : "AutomaticFailoverEnabled" = k at h
      cases h with
      | failover _ h => rw [hd] at h; cases h
      | nodes => simp at hg
    | some v =>
      refine ⟨fun h => .failover he hd h, fun h => ?_⟩
      generalize hg : "AutomaticFailoverEnabled" = k at h
      cases h with
      | failover _ h h' => rw [hd] at h; cases h; exact h'
      | nodes => simp at hg
  have hkey : ∀ key, ClusterFault small g o key → key = "AutomaticFailoverEnabled" ∨ key = "NumCacheClusters" := by
    intro key h
    cases h with
    | failover => exact .inl rfl
    | nodes => exact .inr rfl
  have hg : ((dlookup (Key.str "NumNodeGroups") o).getD .none).truthy = false ↔ ∀ v, dlookup (Key.str "NumNodeGroups") o = some v → v.truthy = false := by
    cases hd : dlookup (Key.str "NumNodeGroups") o with
    | none => exact ⟨fun _ v e => (by cases e), fun _ => rfl⟩
    | some v => exact ⟨fun h w e => by cases e; exact h, fun h => h v rfl⟩
  unfold clusterFaults
  simp only [Val.getD]
  by_cases ht : ((dlookup (Key.str "NumNodeGroups") o).getD .none).truthy = true
  · rw [if_pos ht]
    have hno : ¬ ClusterFault small g o "NumCacheClusters" := by
      intro h
      generalize hgk : "NumCacheClusters" = k at h
      cases h with
      | failover => simp at hgk
      | nodes _ h =>
        rw [hg.2 h] at ht
        cases ht
    refine ⟨_, rfl, fun m => ?_⟩
    constructor
    · intro h
      split at h
      · rename_i hb
        rw [List.mem_singleton] at h
        exact ⟨_, hf.1 hb, h⟩
      · cases h
    · rintro ⟨key, h, rfl⟩
      rcases hkey key h with rfl | rfl
      · rw [if_pos (hf.2 h)]
        exact List.mem_singleton.2 rfl
      · exact absurd h hno
  · rw [if_neg ht]
    have ht' : ((dlookup (Key.str "NumNodeGroups") o).getD .none).truthy = false := by simpa using ht
    have hnum : ∃ b, atMostOne small ((dlookup (Key.str "NumCacheClusters") o).getD (.int 0)) = .ok b ∧ (b = true ↔ ClusterFault small g o "NumCacheClusters") := by
      have hiff : (∀ v, dlookup (Key.str "NumCacheClusters") o = some v → OneOrLess small v) ↔ ClusterFault small g o "NumCacheClusters" := by
        refine ⟨fun h => .nodes he (hg.1 ht') h, fun h => ?_⟩
        generalize hgk : "NumCacheClusters" = k at h
        cases h with
        | failover => simp at hgk
        | nodes _ _ h => exact hgk ▸ h
      cases hd : dlookup (Key.str "NumCacheClusters") o with
      | none =>
        refine ⟨true, rfl, fun _ => hiff.1 (fun v e => ?_), fun _ => rfl⟩
        rw [hd] at e
        cases e
      | some v =>
        obtain ⟨b, h1, h2⟩ := atMostOne_spec (small := small) (hc v hd)
        refine ⟨b, h1, ?_⟩
        rw [h2, ← hiff]
        exact ⟨fun h w e => by rw [hd] at e; cases e; exact h, fun h => h v hd⟩
    obtain ⟨b, h1, h2⟩ := hnum
    rw [h1]
    refine ⟨_, rfl, fun m => ?_⟩
    rw [List.mem_append]
    constructor
    · rintro (h | h)
      · split at h
        · rename_i hb
          rw [List.mem_singleton] at h
          exact ⟨_, hf.1 hb, h⟩
        · cases h
      · split at h
        · rename_i hb
          rw [List.mem_singleton] at h
          exact ⟨_, h2.1 hb, h⟩
        · cases h
    · rintro ⟨key, h, rfl⟩
      rcases hkey key h with rfl | rfl
      · rw [if_pos (hf.2 h)]
        exact .inl (List.mem_singleton.2 rfl)
      · rw [if_pos (h2.2 h)]
        exact .inr (List.mem_singleton.2 rfl)

theorem clusterEnabled_iff {g : List (Key × Val)} : clusterEnabled (.dict g) = true ↔ (Key.str "cluster-enabled", Val.str "yes") ∈ g := by
  unfold clusterEnabled
  rw [List.any_eq_true]
  constructor
  · rintro ⟨kv, hm, h⟩
    rw [beq_iff_eq] at h
    exact h ▸ hm
  · exact fun h => ⟨_, h, by simp⟩

theorem objectUnder_det {sc : Option Scenario} {kvs o o' : List (Key × Val)} (h : ObjectUnder sc kvs o) (h' : ObjectUnder sc kvs o') : o = o' := by
  have := h.2.2.symm.trans h'.2.2
  cases this
  rfl

/-- what is found under one scenario -/
theorem clusterUnder_spec {small : String → Bool} {t : Val} (hw : t.WF) {props kvs gs o : List (Key × Val)} (hpn : (props.map Prod.fst).Nodup) (hkn : (kvs.map Prod.fst).Nodup)
    {gp : Path} (hp : GoodPath t gp) {sc : Option Scenario} (hs : ∀ s k b, sc = some s → (k, b) ∈ s → ∃ c, k = Key.str c) (h1 : ObjectUnder sc kvs gs)
    (h2 : ObjectUnder sc props o) (hc : ∀ v, dlookup (Key.str "NumCacheClusters") o = some v → Comparable v) (path : Path) :
    ∃ l, clusterUnder small t props path (some (.dict kvs)) gp sc = .ok l ∧
      ∀ m, m ∈ l ↔ ¬ Conflicts t gp sc ∧ ∃ key, ClusterFault small gs o key ∧ m = (path ++ [.str key], sc) := by
  unfold clusterUnder
  obtain ⟨conds, hr, -⟩ := pathConds_spec hw hp
  rw [hr]
  dsimp only
  have hnt := notThere_iff hw hp hr hs
  by_cases hn : notThere conds sc = true
  · rw [if_pos hn]
    exact ⟨[], rfl, fun m => ⟨fun h => (by cases h), fun h => absurd (hnt.1 hn) h.1⟩⟩
  · rw [if_neg hn, valuesUnder_spec hkn h1]
    have hnc : ¬ Conflicts t gp sc := fun h => hn (hnt.2 h)
    dsimp only
    by_cases he : clusterEnabled (.dict gs) = true
    · rw [if_pos he, valuesUnder_spec hpn h2]
      obtain ⟨l, e1, e2⟩ := clusterFaults_spec (small := small) (clusterEnabled_iff.1 he) hc path sc
      exact ⟨l, e1, fun m => by rw [e2]; exact ⟨fun h => ⟨hnc, h⟩, fun h => h.2⟩⟩
    · rw [if_neg he]
      refine ⟨[], rfl, fun m => ⟨fun h => (by cases h), ?_⟩⟩
      rintro ⟨-, key, h, -⟩
      cases h with
      | failover h => exact absurd (clusterEnabled_iff.2 h) he
      | nodes h => exact absurd (clusterEnabled_iff.2 h) he

theorem groupSettings_at {top : List (Key × Val)} (hw : (Val.dict top).WF) {name : String} {kvs : List (Key × Val)}
    (h : At (.dict top) [.str "Resources", .str name, .str "Properties", .str "Properties"] (.dict kvs)) : groupSettings (.dict top) (.str name) = .ok (some (.dict kvs)) := by
  cases h with
  | key h1 h =>
    have hw1 := at_wf (At.key h1 .here) hw
    cases h with
    | key h2 h =>
      have hw2 := at_wf (At.key h2 .here) hw1
      cases h with
      | key h3 h =>
        have hw3 := at_wf (At.key h3 .here) hw2
        cases h with
        | key h4 h =>
          cases h
          unfold groupSettings
          simp only [Val.getD, dlookup_of_mem hw.1 h1, Option.getD_some, Val.getK, dlookup_of_mem hw1.1 h2, dlookup_of_mem hw2.1 h3, dlookup_of_mem hw3.1 h4]

theorem tried_iff {scs : List Scenario} {ss : List (Option Scenario)} : Tried scs ss ↔ ss = triedScenarios scs := by
  unfold Tried
  cases scs with
  | nil => simp [triedScenarios]
  | cons a l => simp [triedScenarios]

theorem clusterTest_spec {small : String → Bool} {scenarios : List Val → PyM (List Scenario)} {top : List (Key × Val)} (hw : (Val.dict top).WF) {props : List (Key × Val)}
    (hpn : (props.map Prod.fst).Nodup) {path q : Path} {g : String} (hs : ClusterShape (.dict top) props path q g scenarios) :
    ∃ l, clusterTest small scenarios (.dict top) props path (.str g) (path ++ .str "CacheParameterGroupName" :: q) = .ok l ∧
      ∀ m, m ∈ l ↔ ClusterFinding small scenarios (.dict top) props path q g m := by
  obtain ⟨kvs, scs, ss, h1, h2, h3, h4, h5⟩ := hs.settings
  have hkn : (kvs.map Prod.fst).Nodup := (at_wf h1 hw).1
  unfold clusterTest
  rw [groupSettings_at hw h1]
  simp only [Option.getD_some, h2]
  rw [← tried_iff.1 h3]
  obtain ⟨l, e1, e2⟩ := collectM_spec (as := ss) (f := clusterUnder small (.dict top) props path (some (.dict kvs)) (path ++ .str "CacheParameterGroupName" :: q))
    (P := fun sc m => ∃ gs o, ObjectUnder sc kvs gs ∧ ObjectUnder sc props o ∧ ¬ Conflicts (.dict top) (path ++ .str "CacheParameterGroupName" :: q) sc ∧
      ∃ key, ClusterFault small gs o key ∧ m = (path ++ [.str key], sc)) (by
    intro sc hsc
    obtain ⟨gs, o, f1, f2, f3⟩ := h5 sc hsc
    obtain ⟨l, e1, e2⟩ := clusterUnder_spec (small := small) hw hpn hkn hs.place (h4 sc hsc) f1 f2 f3 path
    refine ⟨l, e1, fun m => ?_⟩
    rw [e2]
    constructor
    · rintro ⟨a, b⟩
      exact ⟨gs, o, f1, f2, a, b⟩
    · rintro ⟨gs', o', f1', f2', a, b⟩
      cases objectUnder_det f1 f1'
      cases objectUnder_det f2 f2'
      exact ⟨a, b⟩)
  refine ⟨l, e1, fun m => ?_⟩
  rw [e2]
  constructor
  · rintro ⟨sc, hsc, gs, o, f1, f2, f3, key, f4, f5⟩
    exact ⟨kvs, scs, ss, sc, gs, o, key, h1, h2, h3, hsc, f3, f1, f2, f4, f5⟩
  · rintro ⟨kvs', scs', ss', sc, gs, o, key, h1', h2', h3', hsc, f3, f1, f2, f4, f5⟩
    cases at_det hw h1 h1'
    rw [h2] at h2'
    cases h2'
    rw [tried_iff.1 h3', ← tried_iff.1 h3] at hsc
    exact ⟨sc, hsc, gs, o, f1, f2, f3, key, f4, f5⟩

/-- the values of a property that are objects, as `get_safe` finds them -/
theorem getSafe_objects {props : List (Key × Val)} (hpw : (Val.dict props).WF) (key dflt : String) (path : Path) :
    ∃ l, getSafe props (.str key) (.str dflt) path [] = .ok l ∧
      ∀ m p, (Val.dict m, p) ∈ l ↔ ∃ v q m', (Key.str key, v) ∈ props ∧ Leaf v q (.dict m') ∧ p = path ++ .str key :: q ∧ Val.dict m = withoutNoValue (.dict m') := by
  unfold getSafe
  simp only [reduceCtorEq, and_false, if_false, List.isEmpty_nil, Bool.not_true, Bool.false_and, Bool.false_eq_true]
  cases hd : dlookup (Key.str key) props with
  | none =>
    refine ⟨_, rfl, fun m p => ?_⟩
    simp only [okType, List.any_nil, List.isEmpty_nil, Bool.or_true, if_true, List.mem_singleton, Prod.mk.injEq, Option.getD_none, reduceCtorEq, false_and, false_iff]
    rintro ⟨v, q, m', h, -⟩
    rw [dlookup_of_mem hpw.1 h] at hd
    cases hd
  | some v =>
    have hm := dlookup_mem hd
    have huniq : ∀ v', (Key.str key, v') ∈ props → v' = v := by
      intro v' h
      rw [dlookup_of_mem hpw.1 h] at hd
      cases hd
      rfl
    rw [Option.getD_some]
    by_cases hdict : ∃ sub, v = .dict sub
    · obtain ⟨sub, rfl⟩ := hdict
      have hsw : (Val.dict sub).WF := at_wf (At.key hm .here) hpw
      refine ⟨_, rfl, fun m p => ?_⟩
      rw [List.mem_filter, mem_itemsSafe [] sub _ _ _ hsw]
      constructor
      · rintro ⟨⟨q, u, h1, rfl, h2, -⟩, -⟩
        cases u with
        | dict m' => exact ⟨_, q, m', hm, h1, by simp, h2⟩
        | _ => cases h2
      · rintro ⟨v, q, m', h0, h1, rfl, h2⟩
        cases huniq v h0
        exact ⟨⟨q, _, h1, by simp, h2, by simp [okType]⟩, by simp [okType]⟩
    · refine ⟨[(v, path ++ [.str key])], ?_, fun m p => ?_⟩
      · cases v with
        | dict sub => exact absurd ⟨sub, rfl⟩ hdict
        | _ => simp [okType]
      · rw [List.mem_singleton, Prod.mk.injEq]
        constructor
        · rintro ⟨rfl, -⟩
          exact absurd ⟨m, rfl⟩ hdict
        · rintro ⟨v', q, m', h0, h1, rfl, h2⟩
          cases huniq v' h0
          exfalso
          cases h1 with
          | here => exact hdict ⟨_, rfl⟩
          | left => exact hdict ⟨_, rfl⟩
          | right => exact hdict ⟨_, rfl⟩

/-- C117: E3026 finds exactly the clusters of which, under a scenario that is tried and that does not conflict with the place of the reference to the parameter group,
the failover is off or the nodes are too few. -/
theorem C117_clusters_partial {small : String → Bool} {scenarios : List Val → PyM (List Scenario)} {top : List (Key × Val)} (hw : (Val.dict top).WF) {props : List (Key × Val)}
    (hpw : (Val.dict props).WF) {path : Path}
    (href : ∀ v q m w, (Key.str "CacheParameterGroupName", v) ∈ props → Leaf v q (.dict m) → (Key.str "Ref", w) ∈ m → ∃ s, w = .str s)
    (hs : ∀ q g, GroupRef (.dict top) props q g → ClusterShape (.dict top) props path q g scenarios) :
    ∃ l, failoverRule small scenarios (.dict top) props path = .ok l ∧
      ∀ x, x ∈ l ↔ ∃ q g, GroupRef (.dict top) props q g ∧ ClusterFinding small scenarios (.dict top) props path q g x := by
  unfold failoverRule
  obtain ⟨groups, hg, hgroups⟩ := getSafe_objects hpw "CacheParameterGroupName" "" path
  rw [hg]
  have hgr : ∃ rs, getResources (.dict top) = .ok rs := by
    unfold getResources
    simp only [Val.getD]
    split
    · rename_i h; cases h
    · exact ⟨_, rfl⟩
    · exact ⟨_, rfl⟩
  obtain ⟨res, hres⟩ := hgr
  rw [hres]
  have hhas : ∀ k, dhas k res = true ↔ ∃ r, TypedResource (.dict top) k r := by
    intro k
    rw [dhas_iff, List.mem_map]
    constructor
    · rintro ⟨⟨k, v⟩, hm, rfl⟩
      obtain ⟨r, -, h⟩ := (mem_getResources hw hres k v).1 hm
      exact ⟨r, h⟩
    · rintro ⟨r, h⟩
      exact ⟨(k, .dict r), (mem_getResources hw hres k _).2 ⟨r, rfl, h⟩, rfl⟩
  obtain ⟨l, e1, e2⟩ := collectM_spec (as := groups) (f := groupOne small scenarios (.dict top) props path res)
    (P := fun wp x => ∃ m q g, wp = (Val.dict m, path ++ .str "CacheParameterGroupName" :: q) ∧ (Key.str "Ref", .str g) ∈ m ∧
      GroupRef (.dict top) props q g ∧ ClusterFinding small scenarios (.dict top) props path q g x) (by
    rintro ⟨w, p⟩ hwp
    unfold groupOne
    cases w with
    | dict m =>
      obtain ⟨v, q, m', f1, f2, rfl, f3⟩ := (hgroups m p).1 hwp
      have hsub : ∀ kv, kv ∈ m → kv ∈ m' := by
        intro kv h
        unfold withoutNoValue at f3
        cases f3
        exact (List.mem_filter.1 h).1
      dsimp only
      obtain ⟨l, e3, e4⟩ := collectM_spec (as := m) (f := groupEntry small scenarios (.dict top) props path res (path ++ .str "CacheParameterGroupName" :: q))
        (P := fun kv x => ∃ g, kv = (Key.str "Ref", Val.str g) ∧ GroupRef (.dict top) props q g ∧ ClusterFinding small scenarios (.dict top) props path q g x) (by
        rintro ⟨k, w⟩ hkv
        unfold groupEntry
        by_cases hk : k = .str "Ref"
        · subst hk
          obtain ⟨g, rfl⟩ := href v q m' w f1 f2 (hsub _ hkv)
          rw [if_pos rfl]
          simp only [toKey]
          by_cases hd : dhas (Key.str g) res = true
          · obtain ⟨r, hr⟩ := (hhas _).1 hd
            have hgref : GroupRef (.dict top) props q g := ⟨v, m', r, f1, f2, hsub _ hkv, hr⟩
            rw [if_pos hd]
            obtain ⟨l, e5, e6⟩ := clusterTest_spec (small := small) hw hpw.1 (hs q g hgref)
            refine ⟨l, e5, fun x => ?_⟩
            rw [e6]
            constructor
            · exact fun h => ⟨g, rfl, hgref, h⟩
            · rintro ⟨g', e, -, h⟩
              cases e
              exact h
          · rw [if_neg hd]
            refine ⟨[], rfl, fun x => ⟨fun h => (by cases h), ?_⟩⟩
            rintro ⟨g', e, ⟨_, _, r, _, _, _, hr⟩, -⟩
            cases e
            exact absurd ((hhas _).2 ⟨r, hr⟩) hd
        · rw [if_neg hk]
          refine ⟨[], rfl, fun x => ⟨fun h => (by cases h), ?_⟩⟩
          rintro ⟨g', e, -⟩
          cases e
          exact absurd rfl hk)
      refine ⟨l, e3, fun x => ?_⟩
      rw [e4]
      constructor
      · rintro ⟨kv, hkv, g, rfl, h1, h2⟩
        exact ⟨m, q, g, rfl, hkv, h1, h2⟩
      · rintro ⟨m1, q1, g, e, h0, h1, h2⟩
        rw [Prod.mk.injEq] at e
        obtain ⟨e, e'⟩ := e
        cases e
        have : q = q1 := by simpa using e'
        subst this
        exact ⟨_, h0, g, rfl, h1, h2⟩
    | _ =>
      refine ⟨[], rfl, fun x => ⟨fun h => (by cases h), ?_⟩⟩
      rintro ⟨m, q, g, e, -⟩
      cases e)
  refine ⟨l, e1, fun x => ?_⟩
  rw [e2]
  constructor
  · rintro ⟨wp, -, m, q, g, -, -, h1, h2⟩
    exact ⟨q, g, h1, h2⟩
  · rintro ⟨q, g, h1, h2⟩
    obtain ⟨v, m', r, f1, f2, f3, f4⟩ := id h1
    refine ⟨(withoutNoValue (.dict m'), _), (hgroups _ _).2 ⟨v, q, m', f1, f2, rfl, rfl⟩, _, q, g, rfl, List.mem_filter.2 ⟨f3, by simp [noValue]⟩, h1, h2⟩

/-- C117, as one would want it: the rule is done with any replication group whose parameter group is in the template. -/
def C117_clusters_statement : Prop := ∀ (small : String → Bool) (scenarios : List Val → PyM (List Scenario)) (t : Val) (props : List (Key × Val)) (path : Path), t.WF →
  (∀ os, ∃ scs, scenarios os = .ok scs) → At t path (.dict props) → ∃ l, failoverRule small scenarios t props path = .ok l

/-- a replication group with the entry and a parameter group with the properties -/
def exCluster (entry : Key × Val) (ps : List (Key × Val)) : Val :=
  .dict [(.str "Resources", .dict [
    (.str "R", .dict [(.str "Type", .str "AWS::ElastiCache::ReplicationGroup"), (.str "Properties", .dict [(.str "CacheParameterGroupName", .dict [(.str "Ref", .str "G")]), entry])]),
    (.str "G", .dict [(.str "Type", .str "AWS::ElastiCache::ParameterGroup"), (.str "Properties", .dict ps)])])]

/-- where the rule is done, it is done with each reference -/
theorem clusters_each {small : String → Bool} {scenarios : List Val → PyM (List Scenario)} {top : List (Key × Val)} (hw : (Val.dict top).WF) {props : List (Key × Val)}
    (hpw : (Val.dict props).WF) {path q : Path} {g : String} (hgr : GroupRef (.dict top) props q g) {l : List (Path × Option Scenario)}
    (h : failoverRule small scenarios (.dict top) props path = .ok l) :
    ∃ l', clusterTest small scenarios (.dict top) props path (.str g) (path ++ .str "CacheParameterGroupName" :: q) = .ok l' := by
  obtain ⟨v, m, r, h1, h2, h3, h4⟩ := hgr
  obtain ⟨groups, hg, hgroups⟩ := getSafe_objects hpw "CacheParameterGroupName" "" path
  unfold failoverRule at h
  rw [hg] at h
  dsimp only at h
  cases hres : getResources (.dict top) with
  | error e => rw [hres] at h; cases h
  | ok res =>
    rw [hres] at h
    obtain ⟨l1, e1⟩ := collectM_each h _ ((hgroups _ _).2 ⟨v, q, m, h1, h2, rfl, rfl⟩)
    obtain ⟨l2, e2⟩ := collectM_each e1 (.str "Ref", .str g) (List.mem_filter.2 ⟨h3, by simp [noValue]⟩)
    unfold groupEntry at e2
    rw [if_pos rfl] at e2
    simp only [toKey] at e2
    rw [if_pos] at e2
    · exact ⟨l2, e2⟩
    · rw [dhas_iff, List.mem_map]
      exact ⟨(.str g, .dict r), (mem_getResources hw hres _ _).2 ⟨r, rfl, h4⟩, rfl⟩

/-- C117: a parameter group without settings of its own ends the rule with an error, where a scenario is tried that does not conflict with the reference: its settings
are taken to be a dictionary that knows no place in the template. -/
theorem C117_no_settings_raises {small : String → Bool} {scenarios : List Val → PyM (List Scenario)} {top : List (Key × Val)} (hw : (Val.dict top).WF)
    {props ps : List (Key × Val)} (hpw : (Val.dict props).WF) {path q : Path} {g : String} (hgr : GroupRef (.dict top) props q g)
    (hat : At (.dict top) [.str "Resources", .str g, .str "Properties"] (.dict ps)) (hno : Key.str "Properties" ∉ ps.map Prod.fst) {scs : List Scenario} {ss : List (Option Scenario)}
    (hsc : scenarios [.dict props, .dict []] = .ok scs) (ht : Tried scs ss) {sc : Option Scenario} (hm : sc ∈ ss) (hp : GoodPath (.dict top) (path ++ .str "CacheParameterGroupName" :: q))
    (hstr : ∀ s k b, sc = some s → (k, b) ∈ s → ∃ c, k = Key.str c) (hc : ¬ Conflicts (.dict top) (path ++ .str "CacheParameterGroupName" :: q) sc) :
    ∃ e, failoverRule small scenarios (.dict top) props path = .error e := by
  cases hr : failoverRule small scenarios (.dict top) props path with
  | error e => exact ⟨e, rfl⟩
  | ok l =>
    exfalso
    obtain ⟨l', h⟩ := clusters_each hw hpw hgr hr
    have hset : groupSettings (.dict top) (.str g) = .ok none := by
      cases hat with
      | key h1 h =>
        have hw1 := at_wf (At.key h1 .here) hw
        cases h with
        | key h2 h =>
          have hw2 := at_wf (At.key h2 .here) hw1
          cases h with
          | key h3 h =>
            cases h
            unfold groupSettings
            simp only [Val.getD, dlookup_of_mem hw.1 h1, Option.getD_some, Val.getK, dlookup_of_mem hw1.1 h2, dlookup_of_mem hw2.1 h3, dlookup_none_iff.2 hno]
    unfold clusterTest at h
    rw [hset] at h
    simp only [Option.getD_none, hsc] at h
    rw [← tried_iff.1 ht] at h
    obtain ⟨l2, h⟩ := collectM_each h _ hm
    unfold clusterUnder at h
    obtain ⟨conds, hcs, -⟩ := pathConds_spec hw hp
    rw [hcs] at h
    dsimp only at h
    rw [if_neg (fun h => hc ((notThere_iff hw hp hcs hstr).1 h))] at h
    cases h

/-- C117: a number of nodes that is no number, for example a reference to a parameter, ends the rule with an error. -/
theorem C117_reference_raises {small : String → Bool} {scenarios : List Val → PyM (List Scenario)} {top : List (Key × Val)} (hw : (Val.dict top).WF)
    {props kvs gs o : List (Key × Val)} (hpw : (Val.dict props).WF) {path q : Path} {g : String} (hgr : GroupRef (.dict top) props q g)
    (hat : At (.dict top) [.str "Resources", .str g, .str "Properties", .str "Properties"] (.dict kvs)) {scs : List Scenario} {ss : List (Option Scenario)}
    (hsc : scenarios [.dict props, .dict kvs] = .ok scs) (ht : Tried scs ss) {sc : Option Scenario} (hm : sc ∈ ss) (hp : GoodPath (.dict top) (path ++ .str "CacheParameterGroupName" :: q))
    (hstr : ∀ s k b, sc = some s → (k, b) ∈ s → ∃ c, k = Key.str c) (hc : ¬ Conflicts (.dict top) (path ++ .str "CacheParameterGroupName" :: q) sc)
    (h1 : ObjectUnder sc kvs gs) (h2 : ObjectUnder sc props o) (he : (Key.str "cluster-enabled", Val.str "yes") ∈ gs)
    (hng : ∀ v, dlookup (Key.str "NumNodeGroups") o = some v → v.truthy = false) {v : Val} (hv : dlookup (Key.str "NumCacheClusters") o = some v) (hcomp : ¬ Comparable v) :
    ∃ e, failoverRule small scenarios (.dict top) props path = .error e := by
  cases hr : failoverRule small scenarios (.dict top) props path with
  | error e => exact ⟨e, rfl⟩
  | ok l =>
    exfalso
    obtain ⟨l', h⟩ := clusters_each hw hpw hgr hr
    unfold clusterTest at h
    rw [groupSettings_at hw hat] at h
    simp only [Option.getD_some, hsc] at h
    rw [← tried_iff.1 ht] at h
    obtain ⟨l2, h⟩ := collectM_each h _ hm
    unfold clusterUnder at h
    obtain ⟨conds, hcs, -⟩ := pathConds_spec hw hp
    rw [hcs] at h
    dsimp only at h
    rw [if_neg (fun h => hc ((notThere_iff hw hp hcs hstr).1 h)), valuesUnder_spec (at_wf hat hw).1 h1] at h
    dsimp only at h
    rw [if_pos (clusterEnabled_iff.2 he), valuesUnder_spec hpw.1 h2] at h
    dsimp only at h
    unfold clusterFaults at h
    have hg : ((dlookup (Key.str "NumNodeGroups") o).getD .none).truthy = false := by
      cases hd : dlookup (Key.str "NumNodeGroups") o with
      | none => rfl
      | some w => exact hng w hd
    simp only [Val.getD, hg, hv, Option.getD_some] at h
    cases v with
    | int i => exact hcomp (.inl ⟨i, rfl⟩)
    | bool b => exact hcomp (.inr (.inl ⟨b, rfl⟩))
    | flt r => exact hcomp (.inr (.inr ⟨r, rfl⟩))
    | _ => cases h

theorem C117_clusters_violated : ¬ C117_clusters_statement := by
  intro h
  obtain ⟨l, h⟩ := h (fun _ => false) (fun _ => .ok []) (exCluster (.str "NumCacheClusters", .int 2) [(.str "CacheParameterGroupFamily", .str "redis6.x")])
    [(.str "CacheParameterGroupName", .dict [(.str "Ref", .str "G")]), (.str "NumCacheClusters", .int 2)] [.str "Resources", .str "R", .str "Properties"]
    (by simp [exCluster, Val.WF, Val.WFDict]) (fun _ => ⟨[], rfl⟩) (.key List.mem_cons_self (.key List.mem_cons_self (.key (List.mem_cons_of_mem _ List.mem_cons_self) .here)))
  cases h

/-- the properties of the replication group -/
def exReplication (entry : Key × Val) : List (Key × Val) := [(.str "CacheParameterGroupName", .dict [(.str "Ref", .str "G")]), entry]

theorem exGroupRef (entry : Key × Val) (ps : List (Key × Val)) : GroupRef (exCluster entry ps) (exReplication entry) [] "G" :=
  ⟨_, [(.str "Ref", .str "G")], _, List.mem_cons_self, .here (by rintro ⟨x, e⟩; simp at e) (by simp [noValue]), List.mem_cons_self,
    _, _, _, rfl, List.mem_cons_self, List.mem_cons_of_mem _ List.mem_cons_self, List.mem_cons_self, by simp⟩

theorem exUnder (n : Nat) : ObjectUnder none (exReplication (.str "NumCacheClusters", .int n)) (exReplication (.str "NumCacheClusters", .int n)) := by
  refine ⟨?_, ?_, ?_⟩
  · simp [FlatObject, exReplication, Flat, NoIf]
  · simp [exReplication, Closed, ClosedEntries]
  · simp [exReplication, project, projectEntries]

/-- the hypotheses of `C117_clusters_partial` are met, and the one node is found -/
example : ∃ l, failoverRule (fun _ => false) (fun _ => .ok []) (exCluster (.str "NumCacheClusters", .int 1) [(.str "Properties", .dict [(.str "cluster-enabled", .str "yes")])])
    (exReplication (.str "NumCacheClusters", .int 1)) [.str "Resources", .str "R", .str "Properties"] = .ok l ∧
    ([.str "Resources", .str "R", .str "Properties", .str "NumCacheClusters"], none) ∈ l := by
  have hw : (exCluster (.str "NumCacheClusters", .int 1) [(.str "Properties", .dict [(.str "cluster-enabled", .str "yes")])]).WF := by simp [exCluster, Val.WF, Val.WFDict]
  have hat : At (exCluster (.str "NumCacheClusters", .int 1) [(.str "Properties", .dict [(.str "cluster-enabled", .str "yes")])])
      [.str "Resources", .str "G", .str "Properties", .str "Properties"] (.dict [(.str "cluster-enabled", .str "yes")]) :=
    .key List.mem_cons_self (.key (List.mem_cons_of_mem _ List.mem_cons_self) (.key (List.mem_cons_of_mem _ List.mem_cons_self) (.key List.mem_cons_self .here)))
  have hset : ObjectUnder none [(.str "cluster-enabled", .str "yes")] [(.str "cluster-enabled", .str "yes")] :=
    ⟨by simp [FlatObject, Flat], by simp [Closed], by simp [project]⟩
  have hleaf : ∀ v q m, (Key.str "CacheParameterGroupName", v) ∈ exReplication (.str "NumCacheClusters", .int 1) → Leaf v q (.dict m) → q = [] ∧ m = [(.str "Ref", .str "G")] := by
    intro v q m h1 h2
    simp [exReplication] at h1
    subst h1
    have hn : ¬ IsIf (.dict [(.str "Ref", .str "G")]) := by rintro ⟨x, e⟩; simp at e
    have := (leaf_of_notIf hn).1 h2
    exact ⟨this.1, by have := this.2.1; simpa using this⟩
  have hp : GoodPath (exCluster (.str "NumCacheClusters", .int 1) [(.str "Properties", .dict [(.str "cluster-enabled", .str "yes")])])
      [.str "Resources", .str "R", .str "Properties", .str "CacheParameterGroupName"] := goodPath_of_B hw (by decide)
  obtain ⟨l, h1, h2⟩ := C117_clusters_partial (small := fun _ => false) (scenarios := fun _ => .ok []) (path := [.str "Resources", .str "R", .str "Properties"]) hw
    (props := exReplication (.str "NumCacheClusters", .int 1)) (by simp [exReplication, Val.WF, Val.WFDict])
    (by
      intro v q m w h1 h2 h3
      obtain ⟨-, rfl⟩ := hleaf v q m h1 h2
      simp at h3
      exact ⟨_, h3⟩)
    (by
      rintro q g ⟨v, m, r, h1, h2, h3, -⟩
      obtain ⟨rfl, rfl⟩ := hleaf v q m h1 h2
      simp at h3
      subst h3
      refine ⟨hp, _, [], [none], hat, rfl, .inl ⟨rfl, rfl⟩, ?_, ?_⟩
      · intro sc hsc s k b e
        rw [List.mem_singleton] at hsc
        subst hsc
        cases e
      · intro sc hsc
        rw [List.mem_singleton] at hsc
        subst hsc
        refine ⟨_, _, hset, exUnder 1, fun v hv => ?_⟩
        simp [exReplication, dlookup] at hv
        exact .inl ⟨1, hv.symm⟩)
  refine ⟨l, h1, (h2 _).2 ⟨[], "G", exGroupRef _ _, _, [], [none], none, _, _, "NumCacheClusters", hat, rfl, .inl ⟨rfl, rfl⟩, List.mem_singleton.2 rfl, ?_, hset, exUnder 1, ?_, rfl⟩⟩
  · rintro ⟨s, c, b, e, -⟩
    cases e
  · refine .nodes List.mem_cons_self ?_ ?_
    · intro v hv
      simp [exReplication, dlookup] at hv
    · intro v hv
      simp [exReplication, dlookup] at hv
      subst hv
      exact .int (by decide)

/-- a database of a class that is not offered is found by the rule: the hypotheses of `C117_sizes` are met -/
def exDatabase : Val :=
  .dict [(.str "Resources", .dict [(.str "D", .dict [(.str "Type", .str "AWS::RDS::DBInstance"),
    (.str "Properties", .dict [(.str "Engine", .str "mysql"), (.str "DBInstanceClass", .str "db.none")])])])]

example : instanceSizeRule [("license-included", []), ("bring-your-own-license", []), ("general-public-license", [("mysql", [("us-east-1", ["db.t2.micro"])])])]
    ["us-east-1", "eu-west-1"] exDatabase = .ok [([.str "Resources", .str "D", .str "Properties", .str "DBInstanceClass"], "us-east-1")] := by
  decide +kernel

/-- **C117**: where there is no scenario the values of a condition cannot be looked up, and the rule raises. -/
theorem C117_no_scenario_raises {kvs : List (Key × Val)} {k : Key} {c a b : Val} (hk : k ≠ .str "Fn::If") (h : (k, fnIf c a b) ∈ kvs) : ∃ e, valuesUnder none (some (.dict kvs)) = .error e := by
  have hin : ∃ e, plainIn (fnIf c a b) = .error e := by
    unfold fnIf
    rw [plainIn, if_pos rfl]
    exact ⟨_, rfl⟩
  obtain ⟨e, he⟩ := hin
  have hprops : ∀ (l acc : List (Key × Val)), (k, fnIf c a b) ∈ l → ∃ e, plainProps l acc = .error e := by
    intro l
    induction l with
    | nil => exact fun _ h => (by cases h)
    | cons kv rest ih =>
      obtain ⟨k', v⟩ := kv
      intro acc h
      rw [plainProps]
      cases hv : plainIn v with
      | error e => exact ⟨e, rfl⟩
      | ok w =>
        rcases List.mem_cons.1 h with h | h
        · cases h
          rw [he] at hv
          cases hv
        · exact ih _ h
  obtain ⟨e', he'⟩ := hprops kvs [] h
  simp only [valuesUnder]
  unfold plainObject
  split
  · rename_i k' v
    cases List.mem_singleton.1 h
    split
    · rename_i h'
      exact absurd h'.1 hk
    · rw [he']
      exact ⟨e', rfl⟩
  · rw [he']
    exact ⟨e', rfl⟩

/-- the hypotheses are met -/
example : ∃ e, valuesUnder none (some (.dict [(.str "NumCacheClusters", fnIf (.str "C") (.int 1) (.int 2))])) = .error e :=
  C117_no_scenario_raises (k := .str "NumCacheClusters") (by simp) List.mem_cons_self

/-- **C117**: settings that are an `Fn::If` as a whole cannot be looked up either where there is no scenario. -/
theorem C117_no_scenario_if (c a b : Val) : ∃ e, valuesUnder none (some (fnIf c a b)) = .error e := ⟨_, rfl⟩

/-- **C117**: without a scenario, values that are neither conditions nor `AWS::NoValue` are as they are written. -/
theorem C117_no_scenario_plain {k k' : Key} {s s' : String} (hk : k ≠ k') :
    valuesUnder none (some (.dict [(k, .str s), (k', .str s')])) = .ok (.dict [(k, .str s), (k', .str s')]) := by
  simp [valuesUnder, plainObject, plainProps, plainIn, dset, hk]

end CfnLint
