import Verif.Spec.Elb
import Verif.Lemmas.Declared
import Verif.Props.Pipeline
import Verif.Props.Projection
/-
C104: listeners and load balancers.
-/
namespace CfnLint
open Spec

/-! ### listeners -/

theorem upper_mem {s : String} {ws : List String} : upper s ∈ ws ↔ ∃ w ∈ ws, SpeltAs s w := by
  unfold upper SpeltAs
  constructor
  · intro h
    exact ⟨_, h, by simp⟩
  · rintro ⟨w, h, e⟩
    rw [e, String.ofList_toList]
    exact h

theorem protocolCheck_iff {accepted certified : List String} {c u : Val} {p m : Path} :
    m ∈ protocolCheck accepted certified c u p ↔ ∃ r, m = p ++ r ∧ r = [] ∧ ∃ s, u = .str s ∧ BadProtocol accepted certified (c.truthy = true) s := by
  have : (∃ r, m = p ++ r ∧ r = [] ∧ ∃ s, u = .str s ∧ BadProtocol accepted certified (c.truthy = true) s) ↔
      m = p ∧ ∃ s, u = .str s ∧ BadProtocol accepted certified (c.truthy = true) s := by
    constructor
    · rintro ⟨r, rfl, rfl, h⟩
      exact ⟨by simp, h⟩
    · rintro ⟨rfl, h⟩
      exact ⟨[], by simp, rfl, h⟩
  rw [this]
  unfold protocolCheck
  split
  · rename_i s
    have hs : (∃ s', Val.str s = .str s' ∧ BadProtocol accepted certified (c.truthy = true) s') ↔ BadProtocol accepted certified (c.truthy = true) s := by
      constructor
      · rintro ⟨s', e, h⟩
        cases e
        exact h
      · exact fun h => ⟨s, rfl, h⟩
    rw [hs]
    have h1 : (∀ w ∈ accepted, ¬ SpeltAs s w) ↔ upper s ∉ accepted := by
      rw [upper_mem]
      push Not
      rfl
    unfold BadProtocol
    rw [h1, ← upper_mem]
    by_cases ha : upper s ∈ accepted
    · rw [if_neg (by simpa using ha)]
      by_cases hc : upper s ∈ certified
      · rw [if_pos hc]
        by_cases ht : c.truthy = true <;> simp [ht, ha, hc]
      · rw [if_neg hc]
        simp [ha, hc]
    · rw [if_pos ha]
      simp [ha]
  · rename_i hne
    simp only [List.not_mem_nil, false_iff]
    rintro ⟨-, s, rfl, -⟩
    exact hne s rfl

/-- C104: the findings of a listener are the protocols that do not exist and those that need a certificate it has not, each at its place. -/
theorem C104_listener (n : Nat) {accepted certified : List String} {key : String} {kvs : List (Key × Val)} (hw : (Val.dict kvs).WF) (hp : ProtocolSet kvs) (path : Path) :
    Finds (listenerCheck (n + 2) accepted certified key (.dict kvs) path) path (ListenerFault accepted certified key kvs) := by
  rw [Val.WF] at hw
  have hnd := hw.1
  have hgiven : ((dlookup (Key.str key) kvs).getD .none).truthy = true ↔ Given kvs key := by
    constructor
    · intro h
      cases hd : dlookup (Key.str key) kvs with
      | none => rw [hd] at h; cases h
      | some v =>
        rw [hd] at h
        exact ⟨v, dlookup_mem hd, h⟩
    · rintro ⟨v, h1, h2⟩
      rw [dlookup_of_mem hnd h1]
      exact h2
  unfold listenerCheck
  simp only [Val.getD]
  cases hd : dlookup (Key.str "Protocol") kvs with
  | none =>
    have h1 : ∀ (f : Val → Path → PyM (List Path)), checkValue (n + 2) { value := some f } (.dict kvs) "Protocol" path = .ok [] := by
      intro f
      simp [checkValue, hd, getValues]
    rw [h1]
    refine finds_none ?_
    rintro r ⟨v, q, s, h, -⟩
    rw [dlookup_of_mem hnd h] at hd
    cases hd
  | some v =>
    have hm := dlookup_mem hd
    refine finds_congr (checkValue_finds (F := fun u r => r = [] ∧ ∃ s, u = .str s ∧ BadProtocol accepted certified (((dlookup (Key.str key) kvs).getD .none).truthy = true) s)
      hd (hp v hm).1 (hp v hm).2 n (fun q u _ _ p m => protocolCheck_iff)) ?_
    intro r
    constructor
    · rintro ⟨q, u, r', h1, -, ⟨rfl, s, rfl, h2⟩, rfl⟩
      refine ⟨v, q, s, hm, h1, ?_, by simp⟩
      rcases h2 with h2 | ⟨h2, h3⟩
      · exact .inl h2
      · exact .inr ⟨h2, fun h => h3 (hgiven.2 h)⟩
    · rintro ⟨v', q, s, h0, h1, h2, rfl⟩
      have : v' = v := by
        rw [dlookup_of_mem hnd h0] at hd
        cases hd
        rfl
      subst this
      refine ⟨q, .str s, [], h1, ?_, ⟨rfl, s, rfl, ?_⟩, by simp⟩
      · exact noCall_known.1 (fun name a _ e => by cases e)
      · rcases h2 with h2 | ⟨h2, h3⟩
        · exact .inl h2
        · exact .inr ⟨h2, fun h => h3 (hgiven.1 h)⟩

theorem listenerFault_certificate {accepted certified : List String} {key : String} {kvs : List (Key × Val)} {p : Path} (h : ListenerFault accepted certified key kvs p)
    (hs : ∀ s v, (Key.str "Protocol", v) ∈ kvs → ∀ q, PropValue v q (.str s) → ∃ w ∈ accepted, SpeltAs s w) : ¬ Given kvs key := by
  obtain ⟨v, q, s, h1, h2, h3, -⟩ := h
  rcases h3 with h3 | ⟨-, h3⟩
  · obtain ⟨w, h4, h5⟩ := hs s v h1 q h2
    exact absurd h5 (h3 w h4)
  · exact h3

/-- C104: the findings of the listeners that are resources. -/
theorem C104_v2 (n : Nat) {t : Val} (hw : t.WF)
    (ho : ∀ name props, HasProps t "AWS::ElasticLoadBalancingV2::Listener" name props → props.truthy = true → ∃ kvs, props = .dict kvs ∧ ProtocolSet kvs) :
    ∃ l, listenersV2 (n + 2) t = .ok l ∧ ∀ p, p ∈ l ↔ ∃ name kvs r, HasProps t "AWS::ElasticLoadBalancingV2::Listener" name (.dict kvs) ∧
      ListenerFault ["GENEVE", "HTTP", "HTTPS", "TCP", "TCP_UDP", "TLS", "UDP"] ["HTTPS", "TLS"] "Certificates" kvs r ∧
      p = [.str "Resources", name, .str "Properties"] ++ r := by
  obtain ⟨rs, h1, h2⟩ := wholeProps hw "AWS::ElasticLoadBalancingV2::Listener" (n + 1)
  obtain ⟨l, h3, h4⟩ := collectM_spec (as := rs) (f := fun r : Path × Val => listenerCheck (n + 2) v2Accepted v2Certified "Certificates" r.2 r.1)
    (P := fun r p => ∃ kvs x, r.2 = .dict kvs ∧ p = r.1 ++ x ∧ ListenerFault v2Accepted v2Certified "Certificates" kvs x) (by
      rintro ⟨p, w⟩ hm
      obtain ⟨name, g1, g2, g3⟩ := (h2 p w).1 hm
      obtain ⟨kvs, rfl, g4⟩ := ho name w g1 g2
      obtain ⟨l, g5, g6⟩ := C104_listener n (accepted := v2Accepted) (certified := v2Certified) (key := "Certificates") (at_wf (hasProps_at g1) hw) g4 p
      refine ⟨l, g5, fun m => ?_⟩
      rw [g6]
      constructor
      · rintro ⟨x, rfl, h⟩
        exact ⟨kvs, x, rfl, rfl, h⟩
      · rintro ⟨kvs', x, e, rfl, h⟩
        cases e
        exact ⟨x, rfl, h⟩)
  refine ⟨l, by simp only [listenersV2, h1, h3], fun p => ?_⟩
  rw [h4]
  constructor
  · rintro ⟨⟨p', w⟩, hm, kvs, x, e, rfl, h⟩
    obtain ⟨name, g1, g2, rfl⟩ := (h2 _ _).1 hm
    cases e
    exact ⟨name, kvs, x, g1, h, rfl⟩
  · rintro ⟨name, kvs, x, g1, h, rfl⟩
    refine ⟨(_, .dict kvs), (h2 _ _).2 ⟨name, g1, ?_, rfl⟩, kvs, x, rfl, rfl, h⟩
    obtain ⟨v, q, s, h5, -⟩ := h
    cases kvs with
    | nil => cases h5
    | cons => rfl

/-- with one key, the values of that key in the properties are returned -/
theorem oneKeyProps {t : Val} (hw : t.WF) (ty key : String) (n : Nat) (ho : ∀ name props, HasProps t ty name props → props.truthy = true → ∃ kvs, props = .dict kvs) :
    ∃ res, resourceProperties (n + 2) ty [key] t = .ok res ∧ ∀ p w, (p, w) ∈ res ↔
      ∃ name kvs, HasProps t ty name (.dict kvs) ∧ (Key.str key, w) ∈ kvs ∧ p = [.str "Resources", name, .str "Properties", .str key] := by
  unfold resourceProperties
  obtain ⟨r, e, m⟩ := collectM_spec (f := fun nr : Key × List (Key × Val) =>
    let props := (dlookup (Key.str "Properties") nr.2).getD .none
    if props.truthy then subProps (n + 2) [key] props [.str "Resources", nr.1, .str "Properties"] else .ok []) (as := resourcesOfType [ty] t)
    (P := fun nr pw => ∃ kvs, dlookup (Key.str "Properties") nr.2 = some (.dict kvs) ∧ (Key.str key, pw.2) ∈ kvs ∧
      pw.1 = [.str "Resources", nr.1, .str "Properties", .str key])
    (by
      rintro ⟨name, r⟩ hmem
      cases hd : dlookup (Key.str "Properties") r with
      | none => exact ⟨[], by simp [Val.truthy], by simp⟩
      | some props =>
        have hP := (ofType_iff hw).1 ⟨r, hmem, hd⟩
        by_cases ht : props.truthy = true
        · obtain ⟨kvs, rfl⟩ := ho name props hP ht
          have hnd : (kvs.map Prod.fst).Nodup := by
            have := at_wf (hasProps_at hP) hw
            rw [Val.WF] at this
            exact this.1
          cases hk : dlookup (Key.str key) kvs with
          | none =>
            refine ⟨[], by simp [ht, subProps, hk], ?_⟩
            rintro ⟨p, w⟩
            simp only [List.not_mem_nil, Option.some.injEq, false_iff]
            rintro ⟨kvs', e, h, -⟩
            cases e
            rw [dlookup_of_mem hnd h] at hk
            cases hk
          | some v =>
            refine ⟨[([.str "Resources", name, .str "Properties", .str key], v)], by simp [ht, subProps, hk], ?_⟩
            rintro ⟨p, w⟩
            simp only [List.mem_singleton, Prod.mk.injEq, Option.some.injEq]
            constructor
            · rintro ⟨rfl, rfl⟩
              exact ⟨kvs, rfl, dlookup_mem hk, rfl⟩
            · rintro ⟨kvs', e, h, rfl⟩
              cases e
              rw [dlookup_of_mem hnd h] at hk
              cases hk
              exact ⟨rfl, rfl⟩
        · refine ⟨[], by simp [ht], ?_⟩
          rintro ⟨p, w⟩
          simp only [List.not_mem_nil, Option.some.injEq, false_iff]
          rintro ⟨kvs, rfl, h, -⟩
          cases kvs with
          | nil => cases h
          | cons => exact ht rfl)
  refine ⟨r, e, fun p w => ?_⟩
  rw [m]
  constructor
  · rintro ⟨⟨name, r⟩, hm, kvs, h1, h2, h3⟩
    exact ⟨name, kvs, (ofType_iff hw).1 ⟨r, hm, h1⟩, h2, h3⟩
  · rintro ⟨name, kvs, h1, h2, h3⟩
    obtain ⟨r, hm, hl⟩ := (ofType_iff hw).2 h1
    exact ⟨(name, r), hm, kvs, hl, h2, h3⟩

/-- C104: the findings of the listeners of classic load balancers, where those are objects. -/
theorem C104_v1 (n : Nat) {t : Val} (hw : t.WF)
    (ho : ∀ name props, HasProps t "AWS::ElasticLoadBalancing::LoadBalancer" name props → props.truthy = true → ∃ kvs, props = .dict kvs ∧
      ∀ xs x, (Key.str "Listeners", Val.list xs) ∈ kvs → x ∈ xs → ∃ es, x = .dict es ∧ ProtocolSet es) :
    ∃ l, listenersV1 (n + 2) t = .ok l ∧ ∀ p, p ∈ l ↔ ∃ name kvs xs es, ∃ i : Nat, ∃ r, HasProps t "AWS::ElasticLoadBalancing::LoadBalancer" name (.dict kvs) ∧
      (Key.str "Listeners", Val.list xs) ∈ kvs ∧ xs[i]? = some (.dict es) ∧
      ListenerFault ["HTTP", "HTTPS", "TCP", "SSL"] ["HTTPS", "SSL"] "SSLCertificateId" es r ∧
      p = [.str "Resources", name, .str "Properties", .str "Listeners", .int i] ++ r := by
  obtain ⟨rs, h1, h2⟩ := oneKeyProps hw "AWS::ElasticLoadBalancing::LoadBalancer" "Listeners" n (fun name props g1 g2 => by
    obtain ⟨kvs, e, -⟩ := ho name props g1 g2
    exact ⟨kvs, e⟩)
  obtain ⟨l, h3, h4⟩ := collectM_spec (as := rs) (f := listenersOf (n + 2))
    (P := fun r p => ∃ xs es, ∃ i : Nat, ∃ x, r.2 = .list xs ∧ xs[i]? = some (.dict es) ∧ p = r.1 ++ [.int i] ++ x ∧
      ListenerFault v1Accepted v1Certified "SSLCertificateId" es x) (by
      rintro ⟨p, w⟩ hm
      obtain ⟨name, kvs, g1, g2, g3⟩ := (h2 p w).1 hm
      unfold listenersOf
      split
      · rename_i xs e
        simp only at e
        subst e
        obtain ⟨l, g5, g6⟩ := collectM_spec (as := xs.zipIdx)
          (f := fun xi : Val × Nat => listenerCheck (n + 2) v1Accepted v1Certified "SSLCertificateId" xi.1 (p ++ [.int xi.2]))
          (P := fun xi m => ∃ es x, xi.1 = .dict es ∧ m = p ++ [.int xi.2] ++ x ∧ ListenerFault v1Accepted v1Certified "SSLCertificateId" es x) (by
            rintro ⟨x, i⟩ hx
            have hx := List.mem_zipIdx_iff_getElem?.1 hx
            simp only at hx
            obtain ⟨kvs', e, hes⟩ := ho name (.dict kvs) g1 (by
              cases kvs with
              | nil => cases g2
              | cons => rfl)
            cases e
            obtain ⟨es, rfl, hes⟩ := hes xs x g2 (List.mem_of_getElem? hx)
            have hwe : (Val.dict es).WF := at_wf (at_append (hasProps_at g1) (.key g2 (.idx (i := i) hx .here))) hw
            obtain ⟨l, g5, g6⟩ := C104_listener n (accepted := v1Accepted) (certified := v1Certified) (key := "SSLCertificateId") hwe hes (p ++ [.int i])
            refine ⟨l, g5, fun m => ?_⟩
            rw [g6]
            constructor
            · rintro ⟨y, rfl, h⟩
              exact ⟨es, y, rfl, rfl, h⟩
            · rintro ⟨es', y, e, rfl, h⟩
              cases e
              exact ⟨y, rfl, h⟩)
        refine ⟨l, g5, fun m => ?_⟩
        rw [g6]
        constructor
        · rintro ⟨⟨x, i⟩, hx, es, y, rfl, rfl, h⟩
          exact ⟨xs, es, i, y, rfl, List.mem_zipIdx_iff_getElem?.1 hx, rfl, h⟩
        · rintro ⟨xs', es, i, y, e, hx, rfl, h⟩
          cases e
          exact ⟨(.dict es, i), List.mem_zipIdx_iff_getElem?.2 hx, es, y, rfl, rfl, h⟩
      · rename_i hne
        refine ⟨[], rfl, fun m => ?_⟩
        simp only [List.not_mem_nil, false_iff]
        rintro ⟨xs, es, i, y, e, -⟩
        exact hne xs e)
  refine ⟨l, by simp only [listenersV1, h1, h3], fun p => ?_⟩
  rw [h4]
  constructor
  · rintro ⟨⟨p', w⟩, hm, xs, es, i, y, e, hx, rfl, h⟩
    obtain ⟨name, kvs, g1, g2, rfl⟩ := (h2 _ _).1 hm
    simp only at e
    subst e
    exact ⟨name, kvs, xs, es, i, y, g1, g2, hx, h, by simp⟩
  · rintro ⟨name, kvs, xs, es, i, y, g1, g2, hx, h, rfl⟩
    exact ⟨(_, .list xs), (h2 _ _).2 ⟨name, kvs, g1, g2, rfl⟩, xs, es, i, y, rfl, hx, by simp, h⟩

/-- C104: the findings of the rule on listeners are those of both kinds. -/
theorem C104_rule {fuel : Nat} {t : Val} {l l' : List Path} (h : listenersV2 fuel t = .ok l) (h' : listenersV1 fuel t = .ok l') :
    ∃ res, listenerRule fuel t = .ok res ∧ ∀ p, p ∈ res ↔ p ∈ l ∨ p ∈ l' :=
  ⟨l ++ l', by simp only [listenerRule, h, h'], fun p => List.mem_append⟩

/-- C104: a listener under a condition is not looked at. -/
theorem C104_listener_missed (n : Nat) (a : Val) (path : Path) :
    listenerCheck (n + 2) v1Accepted v1Certified "SSLCertificateId" (.dict [(.str "Fn::If", a)]) path = .ok [] := rfl

/-- C104: the certificate of a listener that needs one is there in every case. -/
def C104_certificate_statement : Prop :=
  ∀ (n : Nat) (kvs : List (Key × Val)) (path : Path) (cert : Val) (σ : String → Option Bool), (Val.dict kvs).WF → (Key.str "Protocol", Val.str "HTTPS") ∈ kvs →
    (Key.str "Certificates", cert) ∈ kvs → Closed σ cert → project σ cert = none →
    ∃ l, listenerCheck (n + 2) v2Accepted v2Certified "Certificates" (.dict kvs) path = .ok l ∧ path ++ [.str "Protocol"] ∈ l

def exSecureListener : List (Key × Val) :=
  [(.str "Protocol", .str "HTTPS"), (.str "Certificates", .dict [(.str "Fn::If", .list [.str "C", .list [.dict [(.str "CertificateArn", .str "arn")]], noValue])])]

/-- C104: a certificate that a condition takes away counts as one. -/
theorem C104_certificate_violated : ¬ C104_certificate_statement := by
  intro h
  obtain ⟨l, h1, h2⟩ := h 0 exSecureListener [] _ (fun _ => some false) (by simp [exSecureListener, Val.WF, Val.WFDict, Val.WFList, noValue]) (by simp [exSecureListener])
    (List.mem_cons_of_mem _ List.mem_cons_self) (by simp [Closed, ClosedIf, ClosedItems, noValue]) (by rw [project, if_pos rfl, projectIf]; simp [project, noValue])
  rw [show listenerCheck (0 + 2) v2Accepted v2Certified "Certificates" (.dict exSecureListener) [] = .ok [] by decide +kernel] at h1
  cases h1
  cases h2

/-! ### load balancers -/

theorem lbKind_iff {kvs : List (Key × Val)} (hnd : (kvs.map Prod.fst).Nodup) (k : String) : lbKind kvs = some k ↔ KindOf kvs k := by
  unfold lbKind KindOf Application NotApplication
  cases hd : dlookup (Key.str "Type") kvs with
  | none =>
    have hno : ∀ v, (Key.str "Type", v) ∉ kvs := fun v h => by
      rw [dlookup_of_mem hnd h] at hd
      cases hd
    simp only [Option.getD_none, if_true, Option.some.injEq]
    constructor
    · rintro rfl
      exact .inl ⟨.inl hno, rfl⟩
    · rintro (⟨-, rfl⟩ | ⟨⟨s, h, -⟩, -⟩)
      · rfl
      · exact absurd h (hno _)
  | some v =>
    have hm := dlookup_mem hd
    have huniq : ∀ u, (Key.str "Type", u) ∈ kvs → u = v := fun u h => by
      rw [dlookup_of_mem hnd h] at hd
      cases hd
      rfl
    simp only [Option.getD_some]
    split
    · rename_i s
      simp only [Option.some.injEq]
      by_cases hs : s = "application"
      · rw [if_pos hs]
        subst hs
        constructor
        · rintro rfl
          exact .inl ⟨.inr hm, rfl⟩
        · rintro (⟨-, rfl⟩ | ⟨⟨s, h, h'⟩, -⟩)
          · rfl
          · cases huniq _ h
            exact absurd rfl h'
      · rw [if_neg hs]
        constructor
        · rintro rfl
          exact .inr ⟨⟨s, hm, hs⟩, rfl⟩
        · rintro (⟨h | h, rfl⟩ | ⟨-, rfl⟩)
          · exact absurd hm (h _)
          · cases huniq _ h
            exact absurd rfl hs
          · rfl
    · rename_i hne
      simp only [reduceCtorEq, false_iff]
      rintro (⟨h | h, -⟩ | ⟨⟨s, h, -⟩, -⟩)
      · exact h _ hm
      · exact hne _ (huniq _ h).symm
      · exact hne _ (huniq _ h).symm

theorem application_iff {kvs : List (Key × Val)} (hnd : (kvs.map Prod.fst).Nodup) : lbKind kvs = some "application" ↔ Application kvs := by
  rw [lbKind_iff hnd, KindOf]
  simp

theorem network_iff {kvs : List (Key × Val)} (hnd : (kvs.map Prod.fst).Nodup) : lbKind kvs = some "network" ↔ NotApplication kvs := by
  rw [lbKind_iff hnd, KindOf]
  simp

theorem hasAttr_iff {kind key : String} (hk : kind = "application" ∨ kind = "network") : (key ∉ attrsAll ∧ key ∉ attrsOf kind) ↔ ¬ LbHasAttr kind key := by
  constructor
  · rintro ⟨h1, h2⟩ h
    cases h <;> first | exact h1 (by decide) | exact h2 (by decide)
  · intro h
    refine ⟨fun h1 => h ?_, fun h1 => h ?_⟩
    · simp only [attrsAll, List.mem_cons, List.not_mem_nil, or_false] at h1
      rcases h1 with rfl | rfl | rfl | rfl <;> constructor
    · rcases hk with rfl | rfl
      · simp only [attrsOf, if_true, List.mem_cons, List.not_mem_nil, or_false] at h1
        rcases h1 with rfl | rfl | rfl | rfl | rfl <;> constructor
      · rw [attrsOf, if_neg (by decide)] at h1
        simp only [List.mem_cons, List.not_mem_nil, or_false] at h1
        subst h1
        constructor

theorem given_iff {kvs : List (Key × Val)} (hnd : (kvs.map Prod.fst).Nodup) (key : String) : ((dlookup (Key.str key) kvs).getD .none).truthy = true ↔ Given kvs key := by
  constructor
  · intro h
    cases hd : dlookup (Key.str key) kvs with
    | none => rw [hd] at h; cases h
    | some v =>
      rw [hd] at h
      exact ⟨v, dlookup_mem hd, h⟩
  · rintro ⟨v, h1, h2⟩
    rw [dlookup_of_mem hnd h1]
    exact h2

/-- the value of a key, if it is a list or null -/
theorem dlookup_getD_iff {kvs : List (Key × Val)} (hnd : (kvs.map Prod.fst).Nodup) {key : String} {v : Val} (hv : v ≠ .none) :
    (dlookup (Key.str key) kvs).getD .none = v ↔ (Key.str key, v) ∈ kvs := by
  constructor
  · intro h
    cases hd : dlookup (Key.str key) kvs with
    | none => rw [hd] at h; exact absurd h.symm hv
    | some u =>
      rw [hd] at h
      cases h
      exact dlookup_mem hd
  · intro h
    rw [dlookup_of_mem hnd h]
    rfl

theorem fewEntries_iff {kvs : List (Key × Val)} (hnd : (kvs.map Prod.fst).Nodup) {key : String} {f : LbFault} {path : Path} {sc : Option Scenario} {r : LbReport} :
    r ∈ fewEntries key f kvs path sc ↔ (∃ xs, (Key.str key, Val.list xs) ∈ kvs ∧ xs.length < 2) ∧ r = if namesScenario sc then ⟨f, path, sc⟩ else ⟨f, path ++ [.str key], none⟩ := by
  unfold fewEntries
  split
  · rename_i xs e
    rw [dlookup_getD_iff hnd (by simp)] at e
    have : (∃ ys, (Key.str key, Val.list ys) ∈ kvs ∧ ys.length < 2) ↔ xs.length < 2 := by
      constructor
      · rintro ⟨ys, h1, h2⟩
        have := dlookup_of_mem hnd h1
        rw [dlookup_of_mem hnd e] at this
        cases this
        exact h2
      · exact fun h => ⟨xs, e, h⟩
    rw [this]
    by_cases h : xs.length < 2
    · rw [if_pos h, List.mem_singleton]
      simp [h]
    · rw [if_neg h]
      simp [h]
  · rename_i hne
    simp only [List.not_mem_nil, false_iff, not_and]
    rintro ⟨xs, h, -⟩
    exact absurd ((dlookup_getD_iff hnd (by simp)).2 h) (hne xs)

theorem scalar_iff {v : Val} : isPlainValue v = true ↔ ScalarVal v := by
  cases v <;> simp [isPlainValue, ScalarVal]

theorem lbAttributes_spec {kvs : List (Key × Val)} (hw : (Val.dict kvs).WF) (ho : AttrObjects kvs) (path : Path) (sc : Option Scenario) :
    ∃ l, lbAttributes kvs path sc = .ok l ∧ ∀ r, r ∈ l ↔ ∃ key kind, LbFaultOf kvs (.attr key kind) ∧ r = ⟨.attr key kind, path, if namesScenario sc then sc else none⟩ := by
  have hnd : (kvs.map Prod.fst).Nodup := by rw [Val.WF] at hw; exact hw.1
  unfold lbAttributes
  split
  · rename_i items e
    rw [dlookup_getD_iff hnd (by simp)] at e
    obtain ⟨l, h1, h2⟩ := collectM_spec (as := items) (f := lbAttribute (lbKind kvs) path sc)
      (P := fun x r => ∃ es key v kind, x = .dict es ∧ KindOf kvs kind ∧ (Key.str "Key", Val.str key) ∈ es ∧ (Key.str "Value", v) ∈ es ∧ ScalarVal v ∧ ¬ LbHasAttr kind key ∧
        r = ⟨.attr key kind, path, if namesScenario sc then sc else none⟩) (by
        intro x hx
        obtain ⟨es, rfl⟩ := ho items x e hx
        have hes : (es.map Prod.fst).Nodup := by
          obtain ⟨i, hi⟩ := List.getElem?_of_mem hx
          have := at_wf (.key e (.idx (i := i) hi .here)) hw
          rw [Val.WF] at this
          exact this.1
        unfold lbAttribute
        split
        · rename_i es' e'
          cases e'
          split
          · rename_i key ek
            rw [dlookup_getD_iff hes (by simp)] at ek
            have hkey : ∀ key', (Key.str "Key", Val.str key') ∈ es → key' = key := fun key' h => by
              have := dlookup_of_mem hes h
              rw [dlookup_of_mem hes ek] at this
              cases this
              rfl
            split
            · rename_i hv
              have hvm : (Key.str "Value", (dlookup (Key.str "Value") es).getD .none) ∈ es :=
                (dlookup_getD_iff hes (fun h => by rw [h] at hv; cases hv)).1 rfl
              split
              · rename_i hk
                refine ⟨[], rfl, fun r => ?_⟩
                simp only [List.not_mem_nil, false_iff]
                rintro ⟨_, _, _, kind, -, h, -⟩
                rw [← lbKind_iff hnd, hk] at h
                cases h
              · rename_i k hk
                have hk' := (lbKind_iff hnd k).1 hk
                have hkk : k = "application" ∨ k = "network" := by
                  rcases hk' with ⟨-, h⟩ | ⟨-, h⟩
                  · exact .inl h
                  · exact .inr h
                refine ⟨_, rfl, fun r => ?_⟩
                by_cases hc : key ∉ attrsAll ∧ key ∉ attrsOf k
                · rw [if_pos hc, List.mem_singleton]
                  constructor
                  · rintro rfl
                    exact ⟨es, key, _, k, rfl, hk', ek, hvm, scalar_iff.1 hv, (hasAttr_iff hkk).1 hc, rfl⟩
                  · rintro ⟨es', key', v, kind, e', h1, h2, -, -, -, rfl⟩
                    cases e'
                    rw [← lbKind_iff hnd, hk] at h1
                    cases h1
                    rw [hkey key' h2]
                · rw [if_neg hc]
                  simp only [List.not_mem_nil, false_iff]
                  rintro ⟨es', key', v, kind, e', h1, h2, -, -, h3, -⟩
                  cases e'
                  rw [← lbKind_iff hnd, hk] at h1
                  cases h1
                  rw [hkey key' h2] at h3
                  exact hc ((hasAttr_iff hkk).2 h3)
            · rename_i hv
              refine ⟨[], rfl, fun r => ?_⟩
              simp only [List.not_mem_nil, false_iff]
              rintro ⟨es', key', v, kind, e', -, -, h1, h2, -⟩
              cases e'
              rw [dlookup_of_mem hes h1] at hv
              exact hv (scalar_iff.2 h2)
          · rename_i hne
            refine ⟨[], rfl, fun r => ?_⟩
            simp only [List.not_mem_nil, false_iff]
            rintro ⟨es', key', v, kind, e', -, h1, -⟩
            cases e'
            exact hne key' ((dlookup_getD_iff hes (by simp)).2 h1)
        · rename_i hne
          exact absurd rfl (hne es))
    refine ⟨l, h1, fun r => ?_⟩
    rw [h2]
    constructor
    · rintro ⟨x, hx, es, key, v, kind, rfl, g1, g2, g3, g4, g5, rfl⟩
      exact ⟨key, kind, .attr g1 e hx g2 g3 g4 g5, rfl⟩
    · rintro ⟨key, kind, h, rfl⟩
      cases h with
      | @attr items' es _ v _ g1 g0 hx g2 g3 g4 g5 =>
        have := dlookup_of_mem hnd g0
        rw [dlookup_of_mem hnd e] at this
        cases this
        exact ⟨_, hx, es, key, v, kind, rfl, g1, g2, g3, g4, g5, rfl⟩
  · rename_i hne
    refine ⟨[], rfl, fun r => ?_⟩
    simp only [List.not_mem_nil, false_iff]
    rintro ⟨key, kind, h, -⟩
    cases h with
    | attr g1 g0 => exact hne _ ((dlookup_getD_iff hnd (by simp)).2 g0)

theorem lbGroups_iff {kvs : List (Key × Val)} (hnd : (kvs.map Prod.fst).Nodup) (path : Path) (sc : Option Scenario) :
    (LbFaultOf kvs .groups → lbGroups kvs path sc = if namesScenario sc then ([⟨.groups, path, sc⟩], path)
      else ([⟨.groups, path ++ [.str "SecurityGroups"], none⟩], path ++ [.str "SecurityGroups"])) ∧
    (¬ LbFaultOf kvs .groups → lbGroups kvs path sc = ([], path)) := by
  have h : LbFaultOf kvs .groups ↔ (lbKind kvs = some "network" ∧ ((dlookup (Key.str "SecurityGroups") kvs).getD .none).truthy = true) := by
    rw [network_iff hnd, given_iff hnd]
    constructor
    · rintro ⟨h1, h2⟩
      exact ⟨h1, h2⟩
    · rintro ⟨h1, h2⟩
      exact .groups h1 h2
  unfold lbGroups
  exact ⟨fun hh => by rw [if_pos (h.1 hh)], fun hh => by rw [if_neg (fun e => hh (h.2 e))]⟩

theorem albSubnets_iff {kvs : List (Key × Val)} (hnd : (kvs.map Prod.fst).Nodup) {path : Path} {sc : Option Scenario} {r : LbReport} :
    r ∈ albSubnets kvs path sc ↔ ∃ f, (f = .subnets ∨ f = .mappings) ∧ LbFaultOf kvs f ∧
      r = if namesScenario sc then ⟨f, path, sc⟩ else ⟨f, path ++ faultPlace f, none⟩ := by
  unfold albSubnets
  split
  · rename_i hk
    rw [application_iff hnd] at hk
    rw [List.mem_append, fewEntries_iff hnd, fewEntries_iff hnd]
    constructor
    · rintro (⟨⟨xs, h1, h2⟩, rfl⟩ | ⟨⟨xs, h1, h2⟩, rfl⟩)
      · exact ⟨.subnets, .inl rfl, .subnets hk h1 h2, rfl⟩
      · exact ⟨.mappings, .inr rfl, .mappings hk h1 h2, rfl⟩
    · rintro ⟨f, rfl | rfl, h, rfl⟩
      · cases h with
        | subnets _ h1 h2 => exact .inl ⟨⟨_, h1, h2⟩, rfl⟩
      · cases h with
        | mappings _ h1 h2 => exact .inr ⟨⟨_, h1, h2⟩, rfl⟩
  · rename_i hk
    rw [application_iff hnd] at hk
    simp only [List.not_mem_nil, false_iff]
    rintro ⟨f, rfl | rfl, h, -⟩
    · cases h with
      | subnets h => exact hk h
    · cases h with
      | mappings h => exact hk h

/-- where a finding is put: attributes go wrong if there are security groups that should not be there -/
theorem lbStep {kvs : List (Key × Val)} (hw : (Val.dict kvs).WF) (ho : AttrObjects kvs) (path : Path) (sc : Option Scenario) :
    ∃ as, lbAttributes kvs (lbGroups kvs path sc).2 sc = .ok as ∧
      (namesScenario sc = true → (lbGroups kvs path sc).2 = path ∧
        ∀ r, r ∈ (lbGroups kvs path sc).1 ++ albSubnets kvs (lbGroups kvs path sc).2 sc ++ as ↔ ∃ f, LbFaultOf kvs f ∧ r = ⟨f, path, sc⟩) ∧
      (namesScenario sc = false → ∀ r, r ∈ (lbGroups kvs path sc).1 ++ albSubnets kvs (lbGroups kvs path sc).2 sc ++ as ↔
        ∃ f, LbFaultOf kvs f ∧ ∃ q, r = ⟨f, path ++ q, none⟩ ∧
          ((∀ k k', f ≠ .attr k k') ∧ q = faultPlace f ∨ (∃ k k', f = .attr k k') ∧ (¬ LbFaultOf kvs .groups ∧ q = [] ∨ LbFaultOf kvs .groups ∧ q = [.str "SecurityGroups"]))) := by
  have hnd : (kvs.map Prod.fst).Nodup := by rw [Val.WF] at hw; exact hw.1
  obtain ⟨as, h1, h2⟩ := lbAttributes_spec hw ho (lbGroups kvs path sc).2 sc
  have happ : LbFaultOf kvs .groups → ¬ LbFaultOf kvs .subnets ∧ ¬ LbFaultOf kvs .mappings := by
    intro h
    have hn : NotApplication kvs := by cases h; assumption
    have : ¬ Application kvs := by
      rw [← application_iff hnd, (network_iff hnd).2 hn]
      decide
    refine ⟨fun h => ?_, fun h => ?_⟩
    · cases h with
      | subnets h => exact this h
    · cases h with
      | mappings h => exact this h
  refine ⟨as, h1, fun hs => ?_, fun hs => ?_⟩
  · have hp : (lbGroups kvs path sc).2 = path := by
      by_cases hg : LbFaultOf kvs .groups
      · rw [(lbGroups_iff hnd path sc).1 hg, if_pos hs]
      · rw [(lbGroups_iff hnd path sc).2 hg]
    refine ⟨hp, fun r => ?_⟩
    rw [List.mem_append, List.mem_append, h2, albSubnets_iff hnd, hp]
    simp only [hs, if_true]
    constructor
    · rintro ((h | ⟨f, -, h, rfl⟩) | ⟨key, kind, h, rfl⟩)
      · by_cases hg : LbFaultOf kvs .groups
        · rw [(lbGroups_iff hnd path sc).1 hg, if_pos hs, List.mem_singleton] at h
          exact ⟨_, hg, h⟩
        · rw [(lbGroups_iff hnd path sc).2 hg] at h
          cases h
      · exact ⟨f, h, rfl⟩
      · exact ⟨_, h, rfl⟩
    · rintro ⟨f, h, rfl⟩
      cases f with
      | groups =>
        refine .inl (.inl ?_)
        rw [(lbGroups_iff hnd path sc).1 h, if_pos hs]
        exact List.mem_cons_self
      | subnets => exact .inl (.inr ⟨_, .inl rfl, h, rfl⟩)
      | mappings => exact .inl (.inr ⟨_, .inr rfl, h, rfl⟩)
      | attr key kind => exact .inr ⟨key, kind, h, rfl⟩
  · intro r
    rw [List.mem_append, List.mem_append, h2, albSubnets_iff hnd]
    simp only [hs, Bool.false_eq_true, if_false]
    by_cases hg : LbFaultOf kvs .groups
    · rw [(lbGroups_iff hnd path sc).1 hg]
      simp only [hs, Bool.false_eq_true, if_false, List.mem_singleton]
      constructor
      · rintro ((rfl | ⟨f, hf, h, rfl⟩) | ⟨key, kind, h, rfl⟩)
        · exact ⟨.groups, hg, _, rfl, .inl ⟨by simp, rfl⟩⟩
        · rcases hf with rfl | rfl
          · exact absurd h (happ hg).1
          · exact absurd h (happ hg).2
        · exact ⟨_, h, _, rfl, .inr ⟨⟨_, _, rfl⟩, .inr ⟨hg, rfl⟩⟩⟩
      · rintro ⟨f, h, q, rfl, hq⟩
        cases f with
        | groups =>
          rcases hq with ⟨-, rfl⟩ | ⟨⟨_, _, e⟩, -⟩
          · exact .inl (.inl rfl)
          · cases e
        | subnets => exact absurd h (happ hg).1
        | mappings => exact absurd h (happ hg).2
        | attr key kind =>
          rcases hq with ⟨h', -⟩ | ⟨-, ⟨h', -⟩ | ⟨-, rfl⟩⟩
          · exact absurd rfl (h' _ _)
          · exact absurd hg h'
          · exact .inr ⟨key, kind, h, rfl⟩
    · rw [(lbGroups_iff hnd path sc).2 hg]
      simp only [List.not_mem_nil, false_or]
      constructor
      · rintro (⟨f, hf, h, rfl⟩ | ⟨key, kind, h, rfl⟩)
        · exact ⟨f, h, _, rfl, .inl ⟨by rcases hf with rfl | rfl <;> simp, rfl⟩⟩
        · exact ⟨_, h, [], by simp, .inr ⟨⟨_, _, rfl⟩, .inl ⟨hg, rfl⟩⟩⟩
      · rintro ⟨f, h, q, rfl, hq⟩
        cases f with
        | groups => exact absurd h hg
        | subnets =>
          rcases hq with ⟨-, rfl⟩ | ⟨⟨_, _, e⟩, -⟩
          · exact .inl ⟨_, .inl rfl, h, rfl⟩
          · cases e
        | mappings =>
          rcases hq with ⟨-, rfl⟩ | ⟨⟨_, _, e⟩, -⟩
          · exact .inl ⟨_, .inr rfl, h, rfl⟩
          · cases e
        | attr key kind =>
          rcases hq with ⟨h', -⟩ | ⟨-, ⟨-, rfl⟩ | ⟨h', -⟩⟩
          · exact absurd rfl (h' _ _)
          · exact .inr ⟨key, kind, h, by simp⟩
          · exact absurd h' hg

theorem lbLoop_named {path : Path} : ∀ {sets : List (Option Scenario × Val)},
    (∀ s ∈ sets, namesScenario s.1 = true ∧ ∃ kvs, s.2 = .dict kvs ∧ (Val.dict kvs).WF ∧ AttrObjects kvs) →
    ∃ l, lbLoop path sets = .ok l ∧ ∀ r, r ∈ l ↔ ∃ sc kvs f, (sc, Val.dict kvs) ∈ sets ∧ LbFaultOf kvs f ∧ r = ⟨f, path, sc⟩
  | [], _ => ⟨[], rfl, by simp⟩
  | (sc, v) :: rest, h => by
    obtain ⟨hs, kvs, rfl, hw, ho⟩ := h _ List.mem_cons_self
    simp only at hs
    obtain ⟨as, h1, h2, -⟩ := lbStep hw ho path sc
    obtain ⟨hp, h2⟩ := h2 hs
    obtain ⟨l, h3, h4⟩ := lbLoop_named (path := path) (fun s hm => h s (List.mem_cons_of_mem _ hm))
    refine ⟨_, by simp only [lbLoop, h1]; rw [hp, h3], fun r => ?_⟩
    rw [hp] at h2
    rw [List.mem_append, h2, h4]
    constructor
    · rintro (⟨f, g1, rfl⟩ | ⟨sc', kvs', f, g0, g1, rfl⟩)
      · exact ⟨sc, kvs, f, List.mem_cons_self, g1, rfl⟩
      · exact ⟨sc', kvs', f, List.mem_cons_of_mem _ g0, g1, rfl⟩
    · rintro ⟨sc', kvs', f, g0, g1, rfl⟩
      rcases List.mem_cons.1 g0 with e | g0
      · cases e
        exact .inl ⟨f, g1, rfl⟩
      · exact .inr ⟨sc', kvs', f, g0, g1, rfl⟩

/-- C104: with conditions, the findings are the faults of the objects the scenarios give, with the scenario. -/
theorem C104_scenarios {scs : List Scenario} {props : Val} {sets : List (Option Scenario × Val)} (hs : objectsDeep scs props = .ok sets) (hne : scs ≠ [])
    (hsc : ∀ s ∈ sets, (∃ c cs, s.1 = some (c :: cs)) ∧ ∃ kvs, s.2 = .dict kvs ∧ (Val.dict kvs).WF ∧ AttrObjects kvs) (path : Path) :
    ∃ l, loadBalancer scs props path = .ok l ∧ ∀ r, r ∈ l ↔ ∃ sc kvs f, (sc, Val.dict kvs) ∈ sets ∧ LbFaultOf kvs f ∧ r = ⟨f, path, sc⟩ := by
  obtain ⟨l, h1, h2⟩ := lbLoop_named (path := path) (sets := sets) (fun s hm => by
    obtain ⟨⟨c, cs, e⟩, h⟩ := hsc s hm
    exact ⟨by rw [e]; rfl, h⟩)
  exact ⟨l, by simp only [loadBalancer, hs, h1], h2⟩

/-- C104: without conditions, the findings are the faults, each at its place, the attributes at that of the security groups if those are a fault. -/
theorem C104_exact {kvs : List (Key × Val)} (hw : (Val.dict kvs).WF) (ho : AttrObjects kvs) (hn : Val.dict kvs ≠ noValue) (path : Path) :
    ∃ l, loadBalancer [] (.dict kvs) path = .ok l ∧ ∀ r, r ∈ l ↔ ∃ f, LbFaultOf kvs f ∧ ∃ q, r = ⟨f, path ++ q, none⟩ ∧
      ((∀ k k', f ≠ .attr k k') ∧ q = faultPlace f ∨
        (∃ k k', f = .attr k k') ∧ (¬ LbFaultOf kvs .groups ∧ q = [] ∨ LbFaultOf kvs .groups ∧ q = [.str "SecurityGroups"])) := by
  obtain ⟨as, h1, -, h2⟩ := lbStep hw ho path none
  refine ⟨(lbGroups kvs path none).1 ++ albSubnets kvs (lbGroups kvs path none).2 none ++ as, ?_, h2 rfl⟩
  unfold loadBalancer
  rw [(C32_deep_no_scenarios (.dict kvs)).2.2 hn (.inl ⟨_, rfl⟩)]
  simp [lbLoop, h1]

/-- C104, in full: every finding stands at the place of its fault. -/
def C104_statement : Prop :=
  ∀ (kvs : List (Key × Val)) (path : Path), (Val.dict kvs).WF → AttrObjects kvs → Val.dict kvs ≠ noValue →
    ∃ l, loadBalancer [] (.dict kvs) path = .ok l ∧ ∀ r, r ∈ l ↔ ∃ f, LbFaultOf kvs f ∧ r = ⟨f, path ++ faultPlace f, none⟩

/-- C104: it holds where the security groups are no fault. -/
theorem C104_place_partial {kvs : List (Key × Val)} (hw : (Val.dict kvs).WF) (ho : AttrObjects kvs) (hn : Val.dict kvs ≠ noValue) (hg : ¬ LbFaultOf kvs .groups) (path : Path) :
    ∃ l, loadBalancer [] (.dict kvs) path = .ok l ∧ ∀ r, r ∈ l ↔ ∃ f, LbFaultOf kvs f ∧ r = ⟨f, path ++ faultPlace f, none⟩ := by
  obtain ⟨l, h1, h2⟩ := C104_exact hw ho hn path
  refine ⟨l, h1, fun r => ?_⟩
  rw [h2]
  constructor
  · rintro ⟨f, h, q, rfl, ⟨-, rfl⟩ | ⟨⟨k, k', rfl⟩, ⟨-, rfl⟩ | ⟨h', -⟩⟩⟩
    · exact ⟨f, h, rfl⟩
    · exact ⟨_, h, rfl⟩
    · exact absurd h' hg
  · rintro ⟨f, h, rfl⟩
    refine ⟨f, h, _, rfl, ?_⟩
    cases f with
    | attr k k' => exact .inr ⟨⟨k, k', rfl⟩, .inl ⟨hg, rfl⟩⟩
    | groups => exact .inl ⟨by simp, rfl⟩
    | subnets => exact .inl ⟨by simp, rfl⟩
    | mappings => exact .inl ⟨by simp, rfl⟩

def exNetwork : List (Key × Val) :=
  [(.str "Type", .str "network"), (.str "SecurityGroups", .list [.str "sg-1"]),
    (.str "LoadBalancerAttributes", .list [.dict [(.str "Key", .str "routing.http2.enabled"), (.str "Value", .str "true")]])]

theorem exNetwork_met : (Val.dict exNetwork).WF ∧ AttrObjects exNetwork ∧ Val.dict exNetwork ≠ noValue := by
  refine ⟨by simp [exNetwork, Val.WF, Val.WFDict, Val.WFList], fun items x h hx => ?_, by simp [exNetwork, noValue]⟩
  simp only [exNetwork, List.mem_cons, Prod.mk.injEq, List.not_mem_nil, or_false, Val.list.injEq, Key.str.injEq, reduceCtorEq, and_false, false_or] at h
  rcases h with ⟨h, -⟩ | ⟨-, rfl⟩
  · exact absurd h (by decide)
  · exact ⟨_, List.mem_singleton.1 hx⟩

/-- what is reported: the attribute, at the security groups -/
theorem exNetwork_result : loadBalancer [] (.dict exNetwork) [] =
    .ok [⟨.groups, [.str "SecurityGroups"], none⟩, ⟨.attr "routing.http2.enabled" "network", [.str "SecurityGroups"], none⟩] := by decide +kernel

/-- C104: the findings of attributes stand at the security groups. -/
theorem C104_violated : ¬ C104_statement := by
  intro h
  obtain ⟨l, h1, h2⟩ := h exNetwork [] exNetwork_met.1 exNetwork_met.2.1 exNetwork_met.2.2
  rw [exNetwork_result] at h1
  cases h1
  obtain ⟨f, -, e⟩ := (h2 ⟨.attr "routing.http2.enabled" "network", [.str "SecurityGroups"], none⟩).1 (List.mem_cons_of_mem _ List.mem_cons_self)
  injection e with e1 e2
  subst e1
  cases e2

/-! ### examples -/

example : ∃ l, loadBalancer [] (.dict exNetwork) [] = .ok l ∧ ∀ r, r ∈ l ↔ ∃ f, LbFaultOf exNetwork f ∧ ∃ q, r = ⟨f, [] ++ q, none⟩ ∧
      ((∀ k k', f ≠ .attr k k') ∧ q = faultPlace f ∨
        (∃ k k', f = .attr k k') ∧ (¬ LbFaultOf exNetwork .groups ∧ q = [] ∨ LbFaultOf exNetwork .groups ∧ q = [.str "SecurityGroups"])) :=
  C104_exact exNetwork_met.1 exNetwork_met.2.1 exNetwork_met.2.2 []

/-- an application load balancer in one subnet -/
def exAlb : List (Key × Val) := [(.str "Subnets", .list [.str "subnet-1"])]

example : ∃ l, loadBalancer [] (.dict exAlb) [] = .ok l ∧ ∀ r, r ∈ l ↔ ∃ f, LbFaultOf exAlb f ∧ r = ⟨f, [] ++ faultPlace f, none⟩ := by
  refine C104_place_partial (by simp [exAlb, Val.WF, Val.WFDict, Val.WFList]) (fun items x h => ?_) (by simp [exAlb, noValue]) (fun h => ?_) []
  · simp [exAlb] at h
  · cases h with
    | groups h =>
      obtain ⟨s, h, -⟩ := h
      simp [exAlb] at h

example : loadBalancer [] (.dict exAlb) [] = .ok [⟨.subnets, [.str "Subnets"], none⟩] := by decide +kernel

example : objectsDeep [[(.str "C", some true)]] (.dict exAlb) = .ok [(some [(.str "C", some true)], .dict exAlb)] ∧
    ∃ l, loadBalancer [[(.str "C", some true)]] (.dict exAlb) [] = .ok l ∧ (⟨.subnets, [], some [(.str "C", some true)]⟩ : LbReport) ∈ l := by
  have h0 : objectsDeep [[(.str "C", some true)]] (.dict exAlb) = .ok [(some [(.str "C", some true)], .dict exAlb)] := by
    simp [objectsDeep, deepAll, exAlb, deepIn, deepItems, Val.isDict]
  refine ⟨h0, ?_⟩
  obtain ⟨l, h1, h2⟩ := C104_scenarios h0 (by simp) (fun s hs => by
    rw [List.mem_singleton] at hs
    subst hs
    refine ⟨⟨_, _, rfl⟩, exAlb, rfl, by simp [exAlb, Val.WF, Val.WFDict, Val.WFList], fun items x h => ?_⟩
    simp [exAlb] at h) []
  exact ⟨l, h1, (h2 _).2 ⟨_, exAlb, .subnets, List.mem_singleton.2 rfl, .subnets (.inl (by simp [exAlb])) List.mem_cons_self (by simp), rfl⟩⟩

def exListeners : Val :=
  .dict [(.str "Resources", .dict [(.str "L", .dict [(.str "Type", .str "AWS::ElasticLoadBalancingV2::Listener"), (.str "Properties", .dict [(.str "Protocol", .str "https")])]),
    (.str "B", .dict [(.str "Type", .str "AWS::ElasticLoadBalancing::LoadBalancer"),
      (.str "Properties", .dict [(.str "Listeners", .list [.dict [(.str "Protocol", .str "tcp")], .dict [(.str "Protocol", .str "udp")]])])])])]

/-- what is reported: the listener without certificate, and the protocol that does not exist -/
example : listenerRule 10 exListeners = .ok [[.str "Resources", .str "L", .str "Properties", .str "Protocol"],
    [.str "Resources", .str "B", .str "Properties", .str "Listeners", .int 1, .str "Protocol"]] := by decide +kernel

theorem exListeners_props {ty : String} {name : Key} {props : Val} (h : HasProps exListeners ty name props) :
    (ty = "AWS::ElasticLoadBalancingV2::Listener" ∧ props = .dict [(.str "Protocol", .str "https")]) ∨
    (ty = "AWS::ElasticLoadBalancing::LoadBalancer" ∧
      props = .dict [(.str "Listeners", .list [.dict [(.str "Protocol", .str "tcp")], .dict [(.str "Protocol", .str "udp")]])]) := by
  obtain ⟨res, r, h1, h2, h3, h4⟩ := h
  cases h1 with
  | key hm h1 =>
    cases h1
    simp only [List.mem_singleton, Prod.mk.injEq, Val.dict.injEq, true_and] at hm
    subst hm
    simp only [List.mem_cons, Prod.mk.injEq, List.not_mem_nil, or_false, Val.dict.injEq] at h2
    rcases h2 with ⟨-, rfl⟩ | ⟨-, rfl⟩
    · simp at h3 h4
      exact .inl ⟨h3, h4⟩
    · simp at h3 h4
      exact .inr ⟨h3, h4⟩

theorem protocolSet_text {s : String} : ProtocolSet [(.str "Protocol", .str s)] := by
  intro v hv
  simp only [List.mem_singleton, Prod.mk.injEq, true_and] at hv
  subst hv
  exact ⟨by simp, fun q h => by cases ((leaf_of_notIf (by simp [IsIf])).1 h).2.1⟩

example : (∃ l, listenersV2 2 exListeners = .ok l ∧ [Key.str "Resources", .str "L", .str "Properties", .str "Protocol"] ∈ l) ∧ ∃ l, listenersV1 2 exListeners = .ok l := by
  have hw : exListeners.WF := by simp [exListeners, Val.WF, Val.WFDict, Val.WFList]
  obtain ⟨l, h1, h2⟩ := C104_v2 0 hw (fun name props h _ => by
    rcases exListeners_props h with ⟨-, rfl⟩ | ⟨h, -⟩
    · exact ⟨_, rfl, protocolSet_text⟩
    · exact absurd h (by decide))
  obtain ⟨l', h3, -⟩ := C104_v1 0 hw (fun name props h _ => by
    rcases exListeners_props h with ⟨h, -⟩ | ⟨-, rfl⟩
    · exact absurd h (by decide)
    · refine ⟨_, rfl, fun xs x hx hm => ?_⟩
      simp only [List.mem_singleton, Prod.mk.injEq, true_and, Val.list.injEq] at hx
      subst hx
      simp only [List.mem_cons, List.not_mem_nil, or_false] at hm
      rcases hm with rfl | rfl <;> exact ⟨_, rfl, protocolSet_text⟩)
  refine ⟨⟨l, h1, (h2 _).2 ⟨.str "L", [(.str "Protocol", .str "https")], [.str "Protocol"], ⟨_, _, .key List.mem_cons_self .here, List.mem_cons_self, by simp, by simp⟩,
    ⟨.str "https", [], "https", List.mem_cons_self, ⟨[], .str "https", .here (by simp [IsIf]) (by simp [noValue]), .inl ⟨by simp, rfl, rfl⟩⟩,
      .inr ⟨⟨"HTTPS", by simp, by unfold SpeltAs; decide⟩, by rintro ⟨v, hv, -⟩; simp at hv⟩, rfl⟩, rfl⟩⟩, l', h3⟩

end CfnLint
