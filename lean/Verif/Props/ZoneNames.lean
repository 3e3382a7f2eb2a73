import Verif.Model.ZoneNames
import Verif.Spec.ZoneNames
import Verif.Props.TableKeys
/-
C100: E3041 compares the name of a record set with the name of its hosted zone.
-/
namespace CfnLint
open Spec

/-! ### Texts of a set of properties -/

/-- what makes a pair a set of an object -/
def SetOf (scs : List Scenario) (kvs : List (Key × Val)) (s : Option Scenario × Val) : Prop :=
  (scs = [] ∧ s = (none, .dict kvs)) ∨
  ∃ sc ∈ scs, ∃ l, valueFromScenario sc (.dict kvs) = .ok (.dict l) ∧ l ≠ [] ∧ s = (some sc, .dict l)

theorem SetOf.obj {scs : List Scenario} {kvs : List (Key × Val)} {s : Option Scenario × Val}
    (h : SetOf scs kvs s) : ∃ m, s.2 = .dict m := by
  rcases h with ⟨_, rfl⟩ | ⟨_, _, l, _, _, rfl⟩
  · exact ⟨_, rfl⟩
  · exact ⟨_, rfl⟩

theorem strNotIf {s : String} : ¬ IsIf (.str s) := by rintro ⟨_, h⟩; cases h

/-- a text of a set is what agreeing truth values choose -/
theorem set_text_sound {scs : List Scenario} {kvs m : List (Key × Val)} {sc : Option Scenario} {k s : String}
    (hk : (kvs.map Prod.fst).Nodup) (hp : PlainObject kvs) (hset : SetOf scs kvs (sc, .dict m))
    (hu : dlookup (Key.str k) m = some (.str s)) {σ : String → Bool} (hσ : Agrees sc σ) :
    TextUnder σ kvs k s := by
  rcases hset with ⟨_, he⟩ | ⟨sc', _, l, hl, _, he⟩
  · injection he with e1 e2
    injection e2 with e2
    subst e2
    exact ⟨_, [], dlookup_mem hu, .here strNotIf⟩
  · injection he with e1 e2
    injection e2 with e2
    subst e1 e2
    obtain ⟨v, hv, hv2, _⟩ := (scenario_lookup hk hp.noIf hl _ _).1 hu
    obtain ⟨q, hq⟩ := valueIn_chosen_of sc' (by simp) (by simp) strNotIf v (hp.proper _ hv) hv2 σ
      (agrees_some hσ)
    exact ⟨v, q, hv, hq⟩

/-- a text that truth values choose is in a set that agrees and knows the conditions -/
theorem set_text_complete {scs : List Scenario} {kvs m : List (Key × Val)} {sc : Option Scenario}
    {k s : String} (hk : (kvs.map Prod.fst).Nodup) (hp : PlainObject kvs)
    (hset : SetOf scs kvs (sc, .dict m)) {σ : String → Bool} (hσ : Agrees sc σ)
    (hdec : ∀ v, (Key.str k, v) ∈ kvs → ∀ c, Asks c v → Decided sc c) (h : TextUnder σ kvs k s) :
    dlookup (Key.str k) m = some (.str s) := by
  obtain ⟨v, q, hv, hc⟩ := h
  rcases hset with ⟨_, he⟩ | ⟨sc', _, l, hl, _, he⟩
  · injection he with e1 e2
    injection e2 with e2
    subst e1 e2
    cases hc with
    | here => exact dlookup_of_mem hk hv
    | left _ _ => obtain ⟨_, _, e, _⟩ := hdec _ hv _ .here; cases e
    | right _ _ => obtain ⟨_, _, e, _⟩ := hdec _ hv _ .here; cases e
  · injection he with e1 e2
    injection e2 with e2
    subst e1 e2
    refine (scenario_lookup hk hp.noIf hl _ _).2 ⟨v, hv, valueIn_of_chosen hc (by simp) (by simp [noValue]) ?_,
      by simp⟩
    intro c hca
    obtain ⟨x, hx⟩ := decided_fn (hdec v hv c hca)
    rw [hx, agrees_some hσ c x hx]

/-- truth values choose one text at most -/
theorem textUnder_only {σ : String → Bool} {kvs : List (Key × Val)} {k s s' : String}
    (hk : (kvs.map Prod.fst).Nodup) (h : TextUnder σ kvs k s) (h' : TextUnder σ kvs k s') : s = s' := by
  obtain ⟨v, q, hv, hc⟩ := h
  obtain ⟨v', q', hv', hc'⟩ := h'
  have a1 := dlookup_of_mem hk hv
  have a2 := dlookup_of_mem hk hv'
  rw [a1] at a2
  injection a2 with a2
  subst a2
  have := chosen_only hc hc'
  injection this

/-! ### DomainOf -/

theorem endsInDot_iff (s : String) : EndsInDot s ↔ s.toList.getLast? = some '.' := by
  unfold EndsInDot
  rw [List.getLast?_eq_some_iff]

theorem withoutDot_ok {s : String} (hs : s ≠ "") : ∃ d, withoutDot s.toList = .ok d ∧ DomainOf s d := by
  unfold withoutDot
  have hne : s.toList ≠ [] := by
    intro h
    exact hs (String.toList_injective (by rw [h]; rfl))
  cases hl : s.toList.getLast? with
  | none => exact absurd (List.getLast?_eq_none_iff.1 hl) hne
  | some c =>
    by_cases hc : c = '.'
    · subst hc
      refine ⟨s.toList.dropLast, by simp, .inl ?_⟩
      obtain ⟨a, ha⟩ := List.getLast?_eq_some_iff.1 hl
      rw [ha]; simp
    · refine ⟨s.toList, by simp [hc], .inr ⟨rfl, ?_⟩⟩
      rw [endsInDot_iff, hl]
      simpa using hc

theorem names_only {s : String} {d d' : List Char} (h : DomainOf s d) (h' : DomainOf s d') : d = d' := by
  rcases h with h | ⟨h, hn⟩ <;> rcases h' with h' | ⟨h', hn'⟩
  · rw [h] at h'; exact List.append_cancel_right h'
  · exact absurd ⟨_, h⟩ hn'
  · exact absurd ⟨_, h'⟩ hn
  · rw [← h, ← h']

theorem lastChars_iff {z d : List Char} (hz : z ≠ []) : z = lastChars z.length d ↔ EndsWith d z := by
  unfold lastChars EndsWith
  rw [if_neg (by simpa using hz)]
  constructor
  · intro h
    refine ⟨d.take (d.length - z.length), ?_⟩
    conv => lhs; rw [← List.take_append_drop (d.length - z.length) d]
    rw [← h]
  · rintro ⟨a, rfl⟩
    simp

/-- what two texts give -/
theorem mem_zoneTexts {path : Path} {sc : Option Scenario} {n z : String} {d e : List Char}
    (hd : DomainOf n d) (hn : n ≠ "") (he : DomainOf z e) (hz : z ≠ "") : ∃ l,
    zoneTexts path sc n.toList z.toList = .ok l ∧ ∀ r, r ∈ l ↔
      (¬ EndsInDot z ∧ r = ⟨path ++ [.str "HostedZoneName"], sc⟩) ∨
      (d ≠ e ∧ (e = [] ∨ ¬ EndsWith d e) ∧ r = ⟨path ++ [.str "Name"], sc⟩) := by
  obtain ⟨d', hd', hd2⟩ := withoutDot_ok hn
  obtain ⟨e', he', he2⟩ := withoutDot_ok hz
  obtain rfl := names_only hd2 hd
  obtain rfl := names_only he2 he
  unfold zoneTexts
  cases hl : z.toList.getLast? with
  | none =>
    exact absurd (String.toList_injective (by rw [List.getLast?_eq_none_iff.1 hl]; rfl)) hz
  | some c =>
    simp only [hd', he']
    refine ⟨_, rfl, fun r => ?_⟩
    rw [List.mem_append, endsInDot_iff, hl]
    have h1 : (r ∈ (if c = '.' then ([] : List ZoneReport) else [⟨path ++ [.str "HostedZoneName"], sc⟩])) ↔
        (¬ some c = some '.' ∧ r = ⟨path ++ [.str "HostedZoneName"], sc⟩) := by
      by_cases hc : c = '.' <;> simp [hc]
    have h2 : (e' = d' ∨ e' = lastChars e'.length d') ↔ ¬ (d' ≠ e' ∧ (e' = [] ∨ ¬ EndsWith d' e')) := by
      by_cases h0 : e' = []
      · subst h0
        simp only [lastChars, List.length_nil, if_true, true_or, and_true, not_not, or_self]
        exact eq_comm
      · rw [lastChars_iff h0]
        simp only [h0, false_or, not_and, not_not]
        constructor
        · rintro (h | h) hne
          · exact absurd h.symm hne
          · exact h
        · intro h
          by_cases hh : d' = e'
          · exact .inl hh.symm
          · exact .inr (h hh)
    refine or_congr h1 ?_
    by_cases hb : e' = d' ∨ e' = lastChars e'.length d'
    · rw [if_pos hb]
      have := h2.1 hb
      simp only [List.not_mem_nil, false_iff]
      rintro ⟨a, b, _⟩
      exact this ⟨a, b⟩
    · rw [if_neg hb, List.mem_singleton]
      have : d' ≠ e' ∧ (e' = [] ∨ ¬ EndsWith d' e') := by
        by_contra hh; exact hb (h2.2 hh)
      exact ⟨fun h => ⟨this.1, this.2, h⟩, fun h => h.2.2⟩

/-! ### The rule -/

/-- what a finding of the rule says of the texts -/
def ZoneFinding (path : Path) (n z : String) (r : ZoneReport) : Prop :=
  (¬ EndsInDot z ∧ r.path = path ++ [.str "HostedZoneName"]) ∨
  (r.path = path ++ [.str "Name"] ∧ ∀ d e, DomainOf n d → DomainOf z e → d ≠ e ∧ (e = [] ∨ ¬ EndsWith d e))

theorem zone_sets {enum : String → List String → List String} {order : List String → List String}
    {tb : CondTable} {kvs : List (Key × Val)} {sets : List (Option Scenario × Val)}
    (hk : (kvs.map Prod.fst).Nodup) (hp : PlainObject kvs)
    (h : objectWithoutNamed enum order tb (.dict kvs) zoneProps = .ok sets) :
    ∃ cs scs, (∀ c, c ∈ cs ↔ GroupCond kvs zoneProps c) ∧
      getScenarios enum tb ((order cs).map Key.str) = .ok scs ∧ objectsWithout scs (.dict kvs) = .ok sets ∧
      ∀ s, s ∈ sets ↔ SetOf scs kvs s :=
  based_sets hk hp (by simp [zoneProps]) (by simp [zoneProps]) h

/-- C100: a finding is true of the texts that the name and the zone are in every deployment that agrees with
the scenario of the finding. -/
theorem C100_sound {enum : String → List String → List String} {order : List String → List String}
    {tb : CondTable} {kvs : List (Key × Val)} {path : Path} {res : List ZoneReport}
    (hk : (kvs.map Prod.fst).Nodup) (hp : PlainObject kvs)
    (h : zoneCheck enum order tb (.dict kvs) path = .ok res) {r : ZoneReport} (hr : r ∈ res)
    {σ : String → Bool} (hσ : Agrees r.scenario σ) :
    ∃ n z, TextUnder σ kvs "Name" n ∧ TextUnder σ kvs "HostedZoneName" z ∧ ZoneFinding path n z r := by
  unfold zoneCheck at h
  cases hs : objectWithoutNamed enum order tb (.dict kvs) zoneProps with
  | error e => rw [hs] at h; cases h
  | ok sets =>
    rw [hs] at h
    obtain ⟨cs, scs, _, _, _, hmem⟩ := zone_sets hk hp hs
    obtain ⟨⟨sc, obj⟩, hsm, l, hl, hrl⟩ := (mem_collectM h).1 hr
    have hset := (hmem _).1 hsm
    obtain ⟨m, hm⟩ := hset.obj
    dsimp only at hm
    subst hm
    unfold zoneSet at hl
    simp only [Val.getD] at hl
    cases h1 : dlookup (Key.str "Name") m with
    | none =>
      rw [h1] at hl
      simp at hl
      subst hl; cases hrl
    | some nv =>
      cases h2 : dlookup (Key.str "HostedZoneName") m with
      | none =>
        rw [h1, h2] at hl
        simp only [Option.getD_some, Option.getD_none] at hl
        injection hl with hl; subst hl; cases hrl
      | some zv =>
        rw [h1, h2] at hl
        simp only [Option.getD_some] at hl
        split at hl
        · rename_i n z
          by_cases hz : z = ""
          · subst hz; simp [zoneTexts] at hl
          · by_cases hn : n = ""
            · subst hn
              unfold zoneTexts at hl
              obtain ⟨e, he, _⟩ := withoutDot_ok hz
              rw [he] at hl
              split at hl
              · cases hl
              · simp [withoutDot] at hl
            · obtain ⟨d, _, hd⟩ := withoutDot_ok hn
              obtain ⟨e, _, he⟩ := withoutDot_ok hz
              obtain ⟨l', hl', hm'⟩ := mem_zoneTexts (path := path) (sc := sc) hd hn he hz
              rw [hl'] at hl
              injection hl with hl
              subst hl
              have hfin := (hm' r).1 hrl
              have hsc : r.scenario = sc := by rcases hfin with ⟨_, rfl⟩ | ⟨_, _, rfl⟩ <;> rfl
              rw [hsc] at hσ
              refine ⟨n, z, set_text_sound hk hp hset h1 hσ, set_text_sound hk hp hset h2 hσ, ?_⟩
              rcases hfin with ⟨g, rfl⟩ | ⟨g1, g2, rfl⟩
              · exact .inl ⟨g, rfl⟩
              · refine .inr ⟨rfl, fun d' e' hd' he' => ?_⟩
                rw [names_only hd' hd, names_only he' he]
                exact ⟨g1, g2⟩
        · injection hl with hl; subst hl; cases hrl

/-- C100: in a deployment whose zone has no last dot that is reported, and a name that does not end with the
name of the zone is. -/
theorem C100_complete_partial {H : Val → String} {fuel : Nat} {enum : String → List String → List String}
    {order : List String → List String} {t : List (Key × Val)} {tb : CondTable} {b : String → Bool}
    {kvs : List (Key × Val)} {path : Path} {res : List ZoneReport} (ho : SetOrder order)
    (hk : (kvs.map Prod.fst).Nodup) (hp : PlainObject kvs)
    (hd : Deployment H fuel enum t tb (GroupCond kvs zoneProps) b)
    (h : zoneCheck enum order tb (.dict kvs) path = .ok res) {n z : String}
    (hn : TextUnder b kvs "Name" n) (hz : TextUnder b kvs "HostedZoneName" z) :
    (¬ EndsInDot z → ∃ r ∈ res, r.path = path ++ [.str "HostedZoneName"] ∧ Agrees r.scenario b) ∧
    ((∀ d e, DomainOf n d → DomainOf z e → ¬ EndsWith d e) →
      ∃ r ∈ res, r.path = path ++ [.str "Name"] ∧ Agrees r.scenario b) := by
  unfold zoneCheck at h
  cases hs : objectWithoutNamed enum order tb (.dict kvs) zoneProps with
  | error e => rw [hs] at h; cases h
  | ok sets =>
    rw [hs] at h
    obtain ⟨cs, scs, hcs, hsc, hobj, hmem⟩ := zone_sets hk hp hs
    have hhas : ∃ n, HasProp b kvs n := by
      obtain ⟨v, q, hv, hc⟩ := hn
      exact ⟨"Name", v, hv, chosen_not_removed hc (by simp [noValue])⟩
    obtain ⟨⟨sc, obj⟩, hset, hag, hdec⟩ := sets_complete hd ho hcs hsc hp hobj (.inl hhas)
    have hset' := (hmem _).1 hset
    obtain ⟨m, hm⟩ := hset'.obj
    dsimp only at hm hag hdec
    subst hm
    have l1 := set_text_complete hk hp hset' hag
      (fun v hv c hc => hdec c ⟨"Name", by simp [zoneProps], v, hv, hc⟩) hn
    have l2 := set_text_complete hk hp hset' hag
      (fun v hv c hc => hdec c ⟨"HostedZoneName", by simp [zoneProps], v, hv, hc⟩) hz
    obtain ⟨l, hl⟩ := collectM_each h _ hset
    have hl' := hl
    unfold zoneSet at hl'
    simp only [Val.getD, l1, l2, Option.getD_some] at hl'
    have hz0 : z ≠ "" := by
      rintro rfl
      simp [zoneTexts] at hl'
    have hn0 : n ≠ "" := by
      rintro rfl
      unfold zoneTexts at hl'
      obtain ⟨e, he, _⟩ := withoutDot_ok hz0
      rw [he] at hl'
      split at hl'
      · cases hl'
      · simp [withoutDot] at hl'
    obtain ⟨d, _, hd'⟩ := withoutDot_ok hn0
    obtain ⟨e, _, he'⟩ := withoutDot_ok hz0
    obtain ⟨l'', hl'', hm'⟩ := mem_zoneTexts (path := path) (sc := sc) hd' hn0 he' hz0
    rw [hl''] at hl'
    injection hl' with hl'
    subst hl'
    constructor
    · intro hdot
      exact ⟨_, (mem_collectM h).2 ⟨_, hset, l'', hl, (hm' _).2 (.inl ⟨hdot, rfl⟩)⟩, rfl, hag⟩
    · intro hout
      have ho := hout d e hd' he'
      refine ⟨_, (mem_collectM h).2 ⟨_, hset, l'', hl, (hm' _).2 (.inr ⟨?_, .inr ho, rfl⟩)⟩, rfl, hag⟩
      rintro rfl
      exact ho ⟨[], rfl⟩

/-- C100: a name in its zone is not reported, but for the root zone. -/
theorem C100_in_zone_partial {enum : String → List String → List String} {order : List String → List String}
    {tb : CondTable} {kvs : List (Key × Val)} {path : Path} {res : List ZoneReport}
    (hk : (kvs.map Prod.fst).Nodup) (hp : PlainObject kvs)
    (h : zoneCheck enum order tb (.dict kvs) path = .ok res) {r : ZoneReport} (hr : r ∈ res)
    {σ : String → Bool} (hσ : Agrees r.scenario σ) {n z : String} (hn : TextUnder σ kvs "Name" n)
    (hz : TextUnder σ kvs "HostedZoneName" z) {d e : List Char} (hd : DomainOf n d) (he : DomainOf z e)
    (he0 : e ≠ []) (hin : InZone d e) : r.path ≠ path ++ [.str "Name"] := by
  obtain ⟨n', z', h1, h2, h3⟩ := C100_sound hk hp h hr hσ
  obtain rfl := textUnder_only hk h1 hn
  obtain rfl := textUnder_only hk h2 hz
  intro hpath
  rcases h3 with ⟨_, h3⟩ | ⟨_, h3⟩
  · rw [hpath] at h3
    have := List.append_cancel_left h3
    simp at this
  · obtain ⟨g1, g2⟩ := h3 d e hd he
    rcases hin with rfl | ⟨a, rfl⟩ | rfl
    · exact g1 rfl
    · rcases g2 with g2 | g2
      · exact he0 g2
      · exact g2 ⟨a ++ ['.'], by simp⟩
    · exact he0 rfl

/-- C100: an empty text makes the rule raise. -/
theorem C100_empty_raises (path : Path) (sc : Option Scenario) (n : String) :
    zoneTexts path sc n.toList [] = .error (.indexError "string index out of range") ∧
    ∀ z : String, zoneTexts path sc [] z.toList = .error (.indexError "string index out of range") := by
  refine ⟨rfl, fun z => ?_⟩
  unfold zoneTexts
  cases hl : z.toList.getLast? with
  | none => rfl
  | some c => simp [withoutDot, hl]

/-- C100, in full: of two texts the rule reports the name exactly when it is not in the zone. -/
def C100_statement : Prop :=
  ∀ (path : Path) (n z : String) (d e : List Char), n ≠ "" → z ≠ "" → DomainOf n d → DomainOf z e →
    ∀ l, zoneTexts path none n.toList z.toList = .ok l →
      (⟨path ++ [.str "Name"], none⟩ ∈ l ↔ ¬ InZone d e)

/-- C100 fails: the characters are compared, not the parts between dots. -/
theorem C100_boundary_violated : ¬ C100_statement := by
  intro h
  have := (h [] "badexample.com" "example.com." "badexample.com".toList "example.com".toList (by decide)
    (by decide) (.inr ⟨rfl, by rw [endsInDot_iff]; decide⟩) (.inl (by decide)) [] (by decide)).2 (by
      rintro (h | ⟨a, h⟩ | h)
      · exact absurd h (by decide)
      · have h' := congrArg List.reverse h
        simp at h'
      · exact absurd h (by decide))
  cases this

/-- C100 fails of the root zone: all names in it are reported. -/
theorem C100_root_violated : ⟨[.str "Name"], none⟩ ∈
    (zoneTexts [] none "example.com".toList ".".toList).toOption.getD [] ∧
    InZone "example.com".toList [] := ⟨by decide, .inr (.inr rfl)⟩

/-! ### Examples -/

def exZoneObj (n z : String) : List (Key × Val) := [(.str "Name", .str n), (.str "HostedZoneName", .str z)]

example : zoneCheck (fun _ s => s) List.eraseDups exOneTable (.dict (exZoneObj "a.example.com." "example.com.")) [] =
    .ok [] := by decide
example : zoneCheck (fun _ s => s) List.eraseDups exOneTable (.dict (exZoneObj "a.example.org" "example.com")) [] =
    .ok [⟨[.str "HostedZoneName"], none⟩, ⟨[.str "Name"], none⟩] := by decide
example : zoneCheck (fun _ s => s) List.eraseDups exOneTable (.dict [(.str "Name",
    fnIf (.str "C1") (.str "x.org") (.str "x.com")), (.str "HostedZoneName", .str "com.")]) [] =
    .ok [⟨[.str "Name"], some [(.str "C1", some true)]⟩] := by decide
example : TextUnder (fun _ => true) (exZoneObj "a" "b") "Name" "a" :=
  ⟨_, [], List.mem_cons_self, .here strNotIf⟩
example : PlainObject (exZoneObj "a" "b") := ⟨by decide, by decide, by simp [exZoneObj, Proper]⟩
example : DomainOf "a.b." "a.b".toList ∧ DomainOf "a.b" "a.b".toList :=
  ⟨.inl (by decide), .inr ⟨rfl, by rw [endsInDot_iff]; decide⟩⟩

end CfnLint
