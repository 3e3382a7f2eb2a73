import Verif.Model.CondGrammar
import Verif.Lemmas.Refs
import Verif.Props.Refs
import Verif.Props.Template
import Verif.Props.Availability
import Verif.Lemmas.CondRules
/- Properties of the lookup of references (C66). -/
namespace CfnLint
open Spec

theorem paramRefs_lookup (k : Key) : ∀ (ps : List (Key × Val)) (acc a : RefTable), (ps.map Prod.fst).Nodup →
    (∀ kv ∈ ps, ∃ b, kv.2 = .dict b) → paramRefs ps acc = .ok a →
    (∃ b ty, (k, Val.dict b) ∈ ps ∧ dlookup (Key.str "Type") b = some ty ∧ dlookup k a = some (ty, "Parameters")) ∨
    ((∀ b, (k, Val.dict b) ∈ ps → dlookup (Key.str "Type") b = none) ∧ dlookup k a = dlookup k acc)
  | [], acc, a, _, _, h => by
    rw [paramRefs] at h
    injection h with h
    exact .inr ⟨by simp, by rw [h]⟩
  | (n, v) :: ps, acc, a, hn, hd, h => by
    obtain ⟨b, hb⟩ := hd _ List.mem_cons_self
    have hb' : v = .dict b := hb
    subst hb'
    rw [List.map_cons, List.nodup_cons] at hn
    have hd' : ∀ kv ∈ ps, ∃ b, kv.2 = .dict b := fun x hx => hd x (List.mem_cons_of_mem _ hx)
    have hout : n = k → ∀ c, (k, c) ∉ ps := by
      rintro rfl c hc
      exact hn.1 (List.mem_map.2 ⟨_, hc, rfl⟩)
    rw [paramRefs] at h
    simp only [pyIn, dhas, Val.subscript] at h
    cases hl : dlookup (Key.str "Type") b with
    | none =>
      rw [hl] at h
      rcases paramRefs_lookup k ps acc a hn.2 hd' h with ⟨c, ty, h1, h2⟩ | ⟨h1, h2⟩
      · exact .inl ⟨c, ty, List.mem_cons_of_mem _ h1, h2⟩
      · refine .inr ⟨fun c hc => ?_, h2⟩
        rcases List.mem_cons.1 hc with hc | hc
        · injection hc with _ hc
          injection hc with hc
          subst hc
          exact hl
        · exact h1 c hc
    | some ty =>
      rw [hl] at h
      simp only [Option.isSome_some] at h
      rcases paramRefs_lookup k ps _ a hn.2 hd' h with ⟨c, ty, h1, h2⟩ | ⟨h1, h2⟩
      · exact .inl ⟨c, ty, List.mem_cons_of_mem _ h1, h2⟩
      · rw [dlookup_dset] at h2
        by_cases hk : n = k
        · subst hk
          rw [if_pos rfl] at h2
          exact .inl ⟨b, ty, List.mem_cons_self, hl, h2⟩
        · rw [if_neg hk] at h2
          refine .inr ⟨fun c hc => ?_, h2⟩
          rcases List.mem_cons.1 hc with hc | hc
          · injection hc with hc _
            exact absurd hc.symm hk
          · exact h1 c hc

/-- a resource with a type that is not empty and no module -/
def PlainRes (rs : List (Key × Val)) (k : Key) (ty : String) : Prop :=
  ∃ b, (k, Val.dict b) ∈ rs ∧ dlookup (Key.str "Type") b = some (.str ty) ∧ ty ≠ "" ∧ endsWith ty "::MODULE" = false

theorem resourceRefs_lookup {s : String} (hs : PlainName s) : ∀ (rs : List (Key × Val)) (acc a : RefTable),
    (rs.map Prod.fst).Nodup → (∀ kv ∈ rs, ∃ b, kv.2 = .dict b) → resourceRefs rs acc = .ok a →
    (∃ ty, PlainRes rs (.str s) ty ∧ dlookup (Key.str s) a = some (.str ty, "Resources")) ∨
    ((∀ ty, ¬ PlainRes rs (.str s) ty) ∧ dlookup (Key.str s) a = dlookup (Key.str s) acc)
  | [], acc, a, _, _, h => by
    rw [resourceRefs] at h
    injection h with h
    exact .inr ⟨by simp [PlainRes], by rw [h]⟩
  | (n, v) :: rs, acc, a, hn, hd, h => by
    obtain ⟨b, hb⟩ := hd _ List.mem_cons_self
    have hb' : v = .dict b := hb
    subst hb'
    rw [List.map_cons, List.nodup_cons] at hn
    have hd' : ∀ kv ∈ rs, ∃ b, kv.2 = .dict b := fun x hx => hd x (List.mem_cons_of_mem _ hx)
    have hmono : ∀ ty, PlainRes rs (.str s) ty → PlainRes ((n, .dict b) :: rs) (.str s) ty := by
      rintro ty ⟨c, h1, h2⟩
      exact ⟨c, List.mem_cons_of_mem _ h1, h2⟩
    have hback : ∀ ty, PlainRes ((n, .dict b) :: rs) (.str s) ty →
        (n = .str s ∧ dlookup (Key.str "Type") b = some (.str ty) ∧ ty ≠ "" ∧ endsWith ty "::MODULE" = false) ∨
          PlainRes rs (.str s) ty := by
      rintro ty ⟨c, h1, h2⟩
      rcases List.mem_cons.1 h1 with h1 | h1
      · have h3 := (Prod.mk.inj h1).2
        injection h3 with h3
        subst h3
        exact .inl ⟨(Prod.mk.inj h1).1.symm, h2⟩
      · exact .inr ⟨c, h1, h2⟩
    have dot : ∀ b : String, Key.str (b ++ ".*") ≠ Key.str s := by
      intro b he
      injection he with he
      subst he
      exact hs '.' (by rw [String.toList_append]; exact List.mem_append_right _ (by decide)) (by decide)
    rw [resourceRefs] at h
    simp only [Val.getD] at h
    cases hl : dlookup (Key.str "Type") b with
    | none =>
      rw [hl] at h
      simp only [Option.getD_none] at h
      rw [if_neg (by decide), if_neg (by simp)] at h
      rcases resourceRefs_lookup hs rs acc a hn.2 hd' h with ⟨ty, h1, h2⟩ | ⟨h1, h2⟩
      · exact .inl ⟨ty, hmono ty h1, h2⟩
      · refine .inr ⟨fun ty hp => ?_, h2⟩
        rcases hback ty hp with ⟨_, h3, _⟩ | hp
        · rw [hl] at h3; cases h3
        · exact h1 ty hp
    | some w =>
      rw [hl] at h
      simp only [Option.getD_some] at h
      cases w with
      | str ty =>
        simp only at h
        by_cases hm : endsWith ty "::MODULE" = true
        · rw [if_pos hm] at h
          rcases resourceRefs_lookup hs rs _ a hn.2 hd' h with ⟨ty, h1, h2⟩ | ⟨h1, h2⟩
          · exact .inl ⟨ty, hmono ty h1, h2⟩
          · rw [dlookup_dset, if_neg (dot _)] at h2
            refine .inr ⟨fun ty' hp => ?_, h2⟩
            rcases hback ty' hp with ⟨_, h3, _, h4⟩ | hp
            · rw [hl] at h3
              injection h3 with h3
              injection h3 with h3
              subst h3
              rw [hm] at h4
              cases h4
            · exact h1 ty' hp
        · rw [if_neg hm] at h
          by_cases he : ty ≠ ""
          · rw [if_pos he] at h
            rcases resourceRefs_lookup hs rs _ a hn.2 hd' h with ⟨ty, h1, h2⟩ | ⟨h1, h2⟩
            · exact .inl ⟨ty, hmono ty h1, h2⟩
            · rw [dlookup_dset] at h2
              by_cases hk : n = .str s
              · rw [if_pos hk] at h2
                subst hk
                exact .inl ⟨ty, ⟨b, List.mem_cons_self, hl, he, by simpa using hm⟩, h2⟩
              · rw [if_neg hk] at h2
                refine .inr ⟨fun ty' hp => ?_, h2⟩
                rcases hback ty' hp with ⟨h3, _⟩ | hp
                · exact hk h3
                · exact h1 ty' hp
          · rw [if_neg he] at h
            rcases resourceRefs_lookup hs rs acc a hn.2 hd' h with ⟨ty, h1, h2⟩ | ⟨h1, h2⟩
            · exact .inl ⟨ty, hmono ty h1, h2⟩
            · refine .inr ⟨fun ty' hp => ?_, h2⟩
              rcases hback ty' hp with ⟨_, h3, h4, _⟩ | hp
              · rw [hl] at h3
                injection h3 with h3
                injection h3 with h3
                subst h3
                exact he h4
              · exact h1 ty' hp
      | _ => cases h

theorem resourceRefs_module {m : String} : ∀ (rs : List (Key × Val)) (acc a : RefTable),
    (∀ kv ∈ rs, ∃ n, kv.1 = .str n ∧ PlainName n) → resourceRefs rs acc = .ok a →
    ((∃ b ty, (Key.str m, Val.dict b) ∈ rs ∧ dlookup (Key.str "Type") b = some (.str ty) ∧ endsWith ty "::MODULE" = true) ∨
      dlookup (Key.str (m ++ ".*")) acc = some (.str "MODULE", "Resources")) →
    dlookup (Key.str (m ++ ".*")) a = some (.str "MODULE", "Resources")
  | [], acc, a, _, h, hm => by
    rw [resourceRefs] at h
    injection h with h
    subst h
    rcases hm with ⟨b, ty, h, _⟩ | hm
    · cases h
    · exact hm
  | (n, v) :: rs, acc, a, hn, h, hm => by
    have hn' : ∀ kv ∈ rs, ∃ n, kv.1 = .str n ∧ PlainName n := fun x hx => hn x (List.mem_cons_of_mem _ hx)
    obtain ⟨n', rfl, hp⟩ : ∃ n', n = .str n' ∧ PlainName n' := hn _ List.mem_cons_self
    have dot : ∀ b : String, Key.str n' ≠ Key.str (b ++ ".*") := by
      intro b he
      injection he with he
      subst he
      exact hp '.' (by rw [String.toList_append]; exact List.mem_append_right _ (by decide)) (by decide)
    rw [resourceRefs] at h
    cases hv : v.getD "Type" (.str "") with
    | error e => rw [hv] at h; cases h
    | ok w =>
      rw [hv] at h
      cases w with
      | str ty =>
        simp only at h
        by_cases hmod : endsWith ty "::MODULE" = true
        · rw [if_pos hmod] at h
          refine resourceRefs_module rs _ a hn' h ?_
          rcases hm with ⟨b, ty', h1, h2⟩ | hm
          · rcases List.mem_cons.1 h1 with h1 | h1
            · injection h1 with h1 h3
              injection h1 with h1
              subst h1
              exact .inr (by rw [dlookup_dset]; exact if_pos rfl)
            · exact .inl ⟨b, ty', h1, h2⟩
          · refine .inr ?_
            rw [dlookup_dset]
            split
            · rfl
            · exact hm
        · rw [if_neg hmod] at h
          have hm' : (∃ b ty, (Key.str m, Val.dict b) ∈ rs ∧ dlookup (Key.str "Type") b = some (.str ty) ∧
              endsWith ty "::MODULE" = true) ∨ dlookup (Key.str (m ++ ".*")) acc = some (.str "MODULE", "Resources") := by
            rcases hm with ⟨b, ty', h1, h2, h3⟩ | hm
            · rcases List.mem_cons.1 h1 with h1 | h1
              · exfalso
                injection h1 with h1 h4
                subst h4
                simp only [Val.getD, h2, Option.getD_some] at hv
                injection hv with hv
                injection hv with hv
                subst hv
                exact hmod h3
              · exact .inl ⟨b, ty', h1, h2, h3⟩
            · exact .inr hm
          by_cases he : ty ≠ ""
          · rw [if_pos he] at h
            refine resourceRefs_module rs _ a hn' h (hm'.imp id ?_)
            intro hm
            rw [dlookup_dset, if_neg (dot m)]
            exact hm
          · rw [if_neg he] at h
            exact resourceRefs_module rs _ a hn' h hm'
      | _ => cases h

theorem pseudoRefs_lookup (acc : RefTable) (k : Key) :
    (∃ s ∈ pseudoNames, k = .str s ∧ dlookup k (pseudoRefs acc) = some (.str "Pseudo", "Pseduo")) ∨
    ((∀ s ∈ pseudoNames, k ≠ .str s) ∧ dlookup k (pseudoRefs acc) = dlookup k acc) := by
  have : ∀ (l : List String) (acc : RefTable),
      ((∃ s ∈ l, k = .str s) ∨ dlookup k acc = some (.str "Pseudo", "Pseduo")) →
      dlookup k (l.foldl (fun a p => dset (.str p) (.str "Pseudo", "Pseduo") a) acc : RefTable) = some (.str "Pseudo", "Pseduo") := by
    intro l
    induction l with
    | nil =>
      rintro acc (⟨s, h, _⟩ | h)
      · cases h
      · exact h
    | cons x l ih =>
      intro acc h
      rw [List.foldl_cons]
      apply ih
      rw [dlookup_dset]
      rcases h with ⟨s, hs, rfl⟩ | h
      · rcases List.mem_cons.1 hs with rfl | hs
        · exact .inr (if_pos rfl)
        · exact .inl ⟨s, hs, rfl⟩
      · refine .inr ?_
        split
        · rfl
        · exact h
  have hno : ∀ (l : List String) (acc : RefTable), (∀ s ∈ l, k ≠ .str s) →
      dlookup k (l.foldl (fun a p => dset (.str p) (.str "Pseudo", "Pseduo") a) acc : RefTable) = dlookup k acc := by
    intro l
    induction l with
    | nil => intro acc _; rfl
    | cons x l ih =>
      intro acc h
      rw [List.foldl_cons, ih _ (fun s hs => h s (List.mem_cons_of_mem _ hs)), dlookup_dset, if_neg]
      exact fun e => h x List.mem_cons_self e.symm
  by_cases h : ∃ s ∈ pseudoNames, k = .str s
  · obtain ⟨s, hs, rfl⟩ := h
    exact .inl ⟨s, hs, rfl, this pseudoParams acc (.inl ⟨s, hs, rfl⟩)⟩
  · have h' : ∀ s ∈ pseudoNames, k ≠ .str s := fun s hs e => h ⟨s, hs, e⟩
    exact .inr ⟨h', hno pseudoParams acc h'⟩

/-- the entries of the table of valid references -/
theorem validRefs_lookup {t : Val} {tab : RefTable} (h : SectionsOk t) (ht : validRefs t = .ok tab) :
    (∀ s, Declared t s → ∃ ty f, dlookup (Key.str s) tab = some (ty, f) ∧ RefersTo t s ty f) ∧
    ∀ m, IsModule t m → dlookup (Key.str (m ++ ".*")) tab = some (.str "MODULE", "Resources") := by
  obtain ⟨kvs, rfl⟩ := h.top
  obtain ⟨ps, hps, hpm⟩ := sectionItems_ok (name := "Parameters") h.wf (fun s hs => by
    obtain ⟨l, hl, _⟩ := h.params s hs
    exact ⟨l, hl⟩)
  obtain ⟨rs, hrs, hrm⟩ := sectionItems_ok (name := "Resources") h.wf (fun s hs => by
    obtain ⟨l, hl, _⟩ := h.resources s hs
    exact ⟨l, hl⟩)
  have hnd : ∀ {name : String} {l : List (Key × Val)}, sectionItems (.dict kvs) name = .ok l → (l.map Prod.fst).Nodup := by
    intro name l hl
    unfold sectionItems at hl
    simp only [Val.getD] at hl
    cases hs : dlookup (Key.str name) kvs with
    | none =>
      rw [hs] at hl
      simp [Val.truthy] at hl
      subst hl
      simp
    | some v =>
      rw [hs] at hl
      simp only [Option.getD_some] at hl
      split at hl
      · cases v with
        | dict l' =>
          simp only [itemsOf] at hl
          injection hl with hl
          subst hl
          have := wfDict_mem_cond h.wf.2 (dlookup_mem hs)
          exact this.1
        | _ => cases hl
      · injection hl with hl
        subst hl
        simp
  have hp : ∀ kv ∈ ps, (∃ n, kv.1 = .str n ∧ PlainName n) ∧ ∃ b, kv.2 = .dict b := by
    rintro ⟨k, v⟩ hkv
    have ha := (hpm k v).1 hkv
    rw [at_cons] at ha
    obtain ⟨c, hc, ha⟩ := ha
    obtain ⟨l, rfl, hall⟩ := h.params c hc
    exact hall _ (at_dict_one.1 ha)
  have hr : ∀ kv ∈ rs, (∃ n, kv.1 = .str n ∧ PlainName n) ∧ ∃ b, kv.2 = .dict b := by
    rintro ⟨k, v⟩ hkv
    have ha := (hrm k v).1 hkv
    rw [at_cons] at ha
    obtain ⟨c, hc, ha⟩ := ha
    obtain ⟨l, rfl, hall⟩ := h.resources c hc
    obtain ⟨h1, b, h2, _⟩ := hall _ (at_dict_one.1 ha)
    exact ⟨h1, b, h2⟩
  unfold validRefs at ht
  rw [hps] at ht
  simp only at ht
  cases ha : paramRefs ps [] with
  | error e => rw [ha] at ht; cases ht
  | ok a =>
  rw [ha, hrs] at ht
  simp only at ht
  cases hb : resourceRefs rs a with
  | error e => rw [hb] at ht; cases ht
  | ok b =>
  rw [hb] at ht
  injection ht with ht
  subst ht
  -- sections and paths
  have htype : ∀ {sec : String} {l : List (Key × Val)} {k : Key} {ty : Val},
      (∀ k v, (k, v) ∈ l ↔ At (.dict kvs) [.str sec, k] v) → (∀ kv ∈ l, ∃ b, kv.2 = .dict b) →
      (At (.dict kvs) [.str sec, k, .str "Type"] ty ↔ ∃ b, (k, Val.dict b) ∈ l ∧ dlookup (Key.str "Type") b = some ty) := by
    intro sec l k ty hl hd
    constructor
    · intro hat
      have h2 : At (.dict kvs) ([.str sec, k] ++ [.str "Type"]) ty := hat
      obtain ⟨u, h3, h4⟩ := at_split h2
      have hm := (hl k u).2 h3
      obtain ⟨b, hb⟩ := hd _ hm
      have hb' : u = .dict b := hb
      subst hb'
      have hwb := at_wf h3 h.wf
      exact ⟨b, hm, dlookup_of_mem hwb.1 (at_dict_one.1 h4)⟩
    · rintro ⟨b, hm, hl'⟩
      have := at_append ((hl k _).1 hm) (at_dict_one.2 (dlookup_mem hl'))
      exact this
  have htp := fun {k ty} => htype (k := k) (ty := ty) hpm (fun kv hkv => (hp kv hkv).2)
  have htr := fun {k ty} => htype (k := k) (ty := ty) hrm (fun kv hkv => (hr kv hkv).2)
  have hplain : ∀ s ty, PlainRes rs (.str s) ty ↔ At (.dict kvs) [.str "Resources", .str s, .str "Type"] (.str ty) ∧ ty ≠ "" ∧
      ¬ IsModule (.dict kvs) s := by
    intro s ty
    constructor
    · rintro ⟨b, h1, h2, h3, h4⟩
      have hat := htr.2 ⟨b, h1, h2⟩
      refine ⟨hat, h3, ?_⟩
      rintro ⟨ty', h5, h6⟩
      have := at_det h.wf hat h5
      injection this with this
      subst this
      rw [endsWith_iff.2 h6] at h4
      cases h4
    · rintro ⟨h1, h2, h3⟩
      obtain ⟨b, h4, h5⟩ := htr.1 h1
      refine ⟨b, h4, h5, h2, ?_⟩
      cases he : endsWith ty "::MODULE" with
      | false => rfl
      | true => exact absurd ⟨ty, h1, endsWith_iff.1 he⟩ h3
  constructor
  · intro s hd
    have hs := declared_plain h hd
    rcases pseudoRefs_lookup b (.str s) with ⟨s', hs', he, h1⟩ | ⟨hno, h1⟩
    · injection he with he
      subst he
      exact ⟨_, _, h1, .pseudo hs'⟩
    · have hnp : s ∉ pseudoNames := fun hm => hno s hm rfl
      rcases resourceRefs_lookup hs rs a b (hnd hrs) (fun kv hkv => (hr kv hkv).2) hb with ⟨ty, h2, h3⟩ | ⟨h2, h3⟩
      · obtain ⟨h4, h5, h6⟩ := (hplain s ty).1 h2
        exact ⟨_, _, by rw [h1, h3], .resource h4 h5 h6 hnp⟩
      · have hnr : ∀ x, At (.dict kvs) [.str "Resources", .str s, .str "Type"] (.str x) → x = "" ∨ IsModule (.dict kvs) s := by
          intro x hx
          by_cases hx0 : x = ""
          · exact .inl hx0
          · by_cases hm : IsModule (.dict kvs) s
            · exact .inr hm
            · exact absurd ((hplain s x).2 ⟨hx, hx0, hm⟩) (h2 x)
        rcases paramRefs_lookup (.str s) ps [] a (hnd hps) (fun kv hkv => (hp kv hkv).2) ha with ⟨c, ty, h4, h5, h6⟩ | ⟨h4, h5⟩
        · exact ⟨_, _, by rw [h1, h3, h6], .parameter (htp.2 ⟨c, h4, h5⟩) hnr hnp⟩
        · exfalso
          cases hd with
          | parameter hat =>
            obtain ⟨c, h6, h7⟩ := htp.1 hat
            rw [h4 c h6] at h7
            cases h7
          | resource h6 h7 h8 =>
            rcases hnr _ h6 with h9 | h9
            · exact h7 h9
            · exact h8 h9
          | pseudo h6 => exact hnp h6
  · intro m hm
    rcases pseudoRefs_lookup b (.str (m ++ ".*")) with ⟨s', hs', he, h1⟩ | ⟨hno, h1⟩
    · exfalso
      injection he with he
      subst he
      have : '*' ∈ (m ++ ".*").toList := by rw [String.toList_append]; exact List.mem_append_right _ (by decide)
      revert hs' this
      generalize m ++ ".*" = x
      intro hs'
      simp only [pseudoNames, List.mem_cons, List.not_mem_nil, or_false] at hs'
      rcases hs' with rfl | rfl | rfl | rfl | rfl | rfl | rfl | rfl <;> decide
    · rw [h1]
      refine resourceRefs_module rs a b (fun kv hkv => (hr kv hkv).1) hb (.inl ?_)
      obtain ⟨ty, h2, h3⟩ := hm
      obtain ⟨b', h4, h5⟩ := htr.1 h2
      exact ⟨b', ty, h4, h5, endsWith_iff.2 h3⟩

theorem matchingKeys_spec {rx : String → String → PyM Bool} (hrx : MatchesPrefixes rx) (s : String) :
    ∀ keys : List Key, (∀ k ∈ keys, ∃ n, PlainName n ∧ (k = .str n ∨ k = .str (n ++ ".*"))) →
    ∃ ks, matchingKeys rx keys (.str s) = .ok ks ∧ ∀ p, p ∈ ks ↔ Key.str p ∈ keys ∧
      ∃ n, PlainName n ∧ (p = n ∨ p = n ++ ".*") ∧ n.toList <+: s.toList
  | [], _ => ⟨[], rfl, by simp⟩
  | k :: ks, h => by
    obtain ⟨n, hn, hk⟩ := h k List.mem_cons_self
    obtain ⟨l, hl, hm⟩ := matchingKeys_spec hrx s ks (fun x hx => h x (List.mem_cons_of_mem _ hx))
    obtain ⟨h1, h2⟩ := hrx n s hn
    have dot : ∀ a b : String, PlainName a → a ≠ b ++ ".*" := by
      rintro a b ha rfl
      exact ha '.' (by rw [String.toList_append]; exact List.mem_append_right _ (by decide)) (by decide)
    have inj : ∀ a b : String, a ++ ".*" = b ++ ".*" → a = b := by
      intro a b he
      have := congrArg String.toList he
      rw [String.toList_append, String.toList_append, List.append_cancel_right_eq] at this
      exact String.toList_inj.1 this
    obtain ⟨p, rfl, hp, hrp⟩ : ∃ p, k = .str p ∧ (p = n ∨ p = n ++ ".*") ∧ rx p s = .ok (decide (n.toList <+: s.toList)) := by
      rcases hk with rfl | rfl
      · exact ⟨_, rfl, .inl rfl, h1⟩
      · exact ⟨_, rfl, .inr rfl, h2⟩
    rw [matchingKeys]
    simp only [hrp, hl]
    refine ⟨_, rfl, fun q => ?_⟩
    have hpn : (∃ n, PlainName n ∧ (p = n ∨ p = n ++ ".*") ∧ n.toList <+: s.toList) ↔ n.toList <+: s.toList := by
      constructor
      · rintro ⟨m, hm, hq, hpre⟩
        rcases hp with rfl | rfl <;> rcases hq with hq | hq
        · rwa [hq]
        · exact absurd hq (dot _ _ hn)
        · exact absurd hq.symm (dot _ _ hm)
        · rwa [inj _ _ hq]
      · exact fun hpre => ⟨n, hn, hp, hpre⟩
    by_cases hpre : n.toList <+: s.toList
    · simp only [hpre, decide_true, if_true, List.mem_cons, Key.str.injEq, hm]
      constructor
      · rintro (rfl | ⟨h3, h4⟩)
        · exact ⟨.inl rfl, hpn.2 hpre⟩
        · exact ⟨.inr h3, h4⟩
      · rintro ⟨rfl | h3, h4⟩
        · exact .inl rfl
        · exact .inr ⟨h3, h4⟩
    · simp only [hpre, decide_false, Bool.false_eq_true, if_false, List.mem_cons, Key.str.injEq, hm]
      constructor
      · rintro ⟨h3, h4⟩
        exact ⟨.inr h3, h4⟩
      · rintro ⟨rfl | h3, h4⟩
        · exact absurd (hpn.1 h4) hpre
        · exact ⟨h3, h4⟩

theorem longestKey_spec : ∀ {l : List String}, (longestKey l = none → l = []) ∧
    ∀ k, longestKey l = some k → k ∈ l ∧ ∀ x ∈ l, x.toList.length ≤ k.toList.length
  | [] => ⟨fun _ => rfl, fun k h => by cases h⟩
  | x :: xs => by
    obtain ⟨h1, h2⟩ := longestKey_spec (l := xs)
    unfold longestKey
    cases hl : longestKey xs with
    | none =>
      obtain rfl := h1 hl
      refine ⟨(by intro h; cases h), ?_⟩
      intro k hk
      injection hk with hk
      subst hk
      simp
    | some m =>
      obtain ⟨h3, h4⟩ := h2 m hl
      simp only
      split
      · rename_i hle
        refine ⟨(by intro h; cases h), ?_⟩
        intro k hk
        injection hk with hk
        subst hk
        refine ⟨List.mem_cons_of_mem _ h3, ?_⟩
        intro y hy
        rcases List.mem_cons.1 hy with rfl | hy
        · exact hle
        · exact h4 y hy
      · rename_i hle
        refine ⟨(by intro h; cases h), ?_⟩
        intro k hk
        injection hk with hk
        subst hk
        refine ⟨List.mem_cons_self, ?_⟩
        intro y hy
        rcases List.mem_cons.1 hy with rfl | hy
        · exact Nat.le_refl _
        · have := h4 y hy
          omega

/-- **C66** in full: the table of valid references gives for every name what it refers to, and nothing for the others. -/
def C66_statement : Prop := ∀ (rx : String → String → PyM Bool) (t : Val), MatchesPrefixes rx → SectionsOk t →
  ∃ tab, validRefs t = .ok tab ∧ ∀ s, ∃ r, regexGet rx tab (.str s) = .ok r ∧
    ∀ ty f, r = some (ty, f) ↔ RefersTo t s ty f

theorem refersTo_det {t : Val} (hw : t.WF) {s : String} {ty ty' : Val} {f f' : String} (h : RefersTo t s ty f) (h' : RefersTo t s ty' f') :
    ty = ty' ∧ f = f' := by
  cases h with
  | parameter h1 h2 h3 =>
    cases h' with
    | parameter h4 => exact ⟨at_det hw h1 h4, rfl⟩
    | resource h4 h5 h6 =>
      rcases h2 _ h4 with h7 | h7
      · exact absurd h7 h5
      · exact absurd h7 h6
    | pseudo h4 => exact absurd h4 h3
    | module h4 => exact absurd (.parameter h1) h4
  | resource h1 h2 h3 h4 =>
    cases h' with
    | parameter h5 h6 =>
      rcases h6 _ h1 with h7 | h7
      · exact absurd h7 h2
      · exact absurd h7 h3
    | resource h5 => exact ⟨at_det hw h1 h5, rfl⟩
    | pseudo h5 => exact absurd h5 h4
    | module h5 => exact absurd (.resource h1 h2 h3) h5
  | pseudo h1 =>
    cases h' with
    | parameter _ _ h3 => exact absurd h1 h3
    | resource _ _ _ h3 => exact absurd h1 h3
    | pseudo => exact ⟨rfl, rfl⟩
    | module h3 => exact absurd (.pseudo h1) h3
  | module h1 =>
    cases h' with
    | parameter h3 => exact absurd (.parameter h3) h1
    | resource h3 h4 h5 => exact absurd (.resource h3 h4 h5) h1
    | pseudo h3 => exact absurd (.pseudo h3) h1
    | module => exact ⟨rfl, rfl⟩

/-- **C66**, what holds: the names of the template are looked up correctly unless the name of a module is nearly as long
(two characters or fewer are missing), and so are names that do not begin with a declared name. -/
theorem C66_lookup_partial {rx : String → String → PyM Bool} {t : Val} (hrx : MatchesPrefixes rx) (h : SectionsOk t) :
    ∃ tab, validRefs t = .ok tab ∧ ∀ s,
      (∀ n, Declared t n → n.toList <+: s.toList → Declared t s) →
      (Declared t s → ∀ m, IsModule t m → m.toList <+: s.toList → m.toList.length + 2 < s.toList.length) →
      ∃ r, regexGet rx tab (.str s) = .ok r ∧ ∀ ty f, r = some (ty, f) ↔ RefersTo t s ty f := by
  obtain ⟨tab, htab, hkeys⟩ := validRefs_keys h
  obtain ⟨hdecl, hmod⟩ := validRefs_lookup h htab
  refine ⟨tab, htab, fun s hpre hmods => ?_⟩
  obtain ⟨ks, hks, hmem⟩ := matchingKeys_spec hrx s (tab.map Prod.fst) (by
    intro k hk
    rcases (hkeys k).1 hk with ⟨n, rfl, hn⟩ | ⟨m, hm, rfl⟩
    · exact ⟨n, declared_plain h hn, .inl rfl⟩
    · exact ⟨m, module_plain h hm, .inr rfl⟩)
  have dot : ∀ a b : String, PlainName a → a ≠ b ++ ".*" := by
    rintro a b ha rfl
    exact ha '.' (by rw [String.toList_append]; exact List.mem_append_right _ (by decide)) (by decide)
  have inj : ∀ a b : String, a ++ ".*" = b ++ ".*" → a = b := by
    intro a b he
    have := congrArg String.toList he
    rw [String.toList_append, String.toList_append, List.append_cancel_right_eq] at this
    exact String.toList_inj.1 this
  have hks' : ∀ p, p ∈ ks ↔ (Declared t p ∧ p.toList <+: s.toList) ∨ ∃ m, IsModule t m ∧ p = m ++ ".*" ∧ m.toList <+: s.toList := by
    intro p
    rw [hmem, hkeys]
    constructor
    · rintro ⟨⟨p', he, hd⟩ | ⟨m, hm, he⟩, n, hn, hp, hpre⟩
      · injection he with he
        subst he
        rcases hp with rfl | hp
        · exact .inl ⟨hd, hpre⟩
        · exact absurd hp (dot _ _ (declared_plain h hd))
      · injection he with he
        subst he
        rcases hp with hp | hp
        · exact absurd hp.symm (dot _ _ hn)
        · obtain rfl := inj _ _ hp
          exact .inr ⟨m, hm, rfl, hpre⟩
    · rintro (⟨hd, hp⟩ | ⟨m, hm, rfl, hp⟩)
      · exact ⟨.inl ⟨p, rfl, hd⟩, p, declared_plain h hd, .inl rfl, hp⟩
      · exact ⟨.inr ⟨m, hm, rfl⟩, m, module_plain h hm, .inr rfl, hp⟩
  unfold regexGet
  rw [hks]
  simp only
  by_cases hd : Declared t s
  · obtain ⟨ty, f, hl, hr⟩ := hdecl s hd
    have hs : s ∈ ks := (hks' s).2 (.inl ⟨hd, List.prefix_refl _⟩)
    have hlong : longestKey ks = some s := by
      cases hlk : longestKey ks with
      | none =>
        have := longestKey_spec.1 hlk
        rw [this] at hs
        cases hs
      | some k =>
        obtain ⟨h1, h2⟩ := longestKey_spec.2 k hlk
        have h3 := h2 s hs
        rcases (hks' k).1 h1 with ⟨_, h4⟩ | ⟨m, hm, rfl, h4⟩
        · have := h4.eq_of_length (Nat.le_antisymm h4.length_le h3)
          rw [String.toList_inj.1 this]
        · have h5 := hmods hd m hm h4
          rw [String.toList_append, List.length_append] at h3
          have : ".*".toList.length = 2 := by decide
          omega
    rw [hlong]
    refine ⟨_, rfl, fun ty' f' => ?_⟩
    rw [hl]
    constructor
    · intro he
      injection he with he
      injection he with he1 he2
      subst he1 he2
      exact hr
    · intro hr'
      obtain ⟨rfl, rfl⟩ := refersTo_det h.wf hr hr'
      rfl
  · have hnd : ∀ p, p ∈ ks ↔ ∃ m, IsModule t m ∧ p = m ++ ".*" ∧ m.toList <+: s.toList := by
      intro p
      rw [hks']
      constructor
      · rintro (⟨h1, h2⟩ | h1)
        · exact absurd (hpre p h1 h2) hd
        · exact h1
      · exact .inr
    have hno : ∀ ty f, RefersTo t s ty f → ty = .str "MODULE" ∧ f = "Resources" ∧ ∃ m, IsModule t m ∧ m.toList <+: s.toList := by
      intro ty f hr
      cases hr with
      | parameter h1 => exact absurd (.parameter h1) hd
      | resource h1 h2 h3 => exact absurd (.resource h1 h2 h3) hd
      | pseudo h1 => exact absurd (.pseudo h1) hd
      | module _ h2 h3 => exact ⟨rfl, rfl, _, h2, h3⟩
    cases hlk : longestKey ks with
    | none =>
      have hnil := longestKey_spec.1 hlk
      refine ⟨none, rfl, fun ty f => ⟨(by intro h; cases h), fun hr => ?_⟩⟩
      obtain ⟨_, _, m, hm, hp⟩ := hno ty f hr
      have := (hnd (m ++ ".*")).2 ⟨m, hm, rfl, hp⟩
      rw [hnil] at this
      cases this
    | some k =>
      obtain ⟨h1, _⟩ := longestKey_spec.2 k hlk
      obtain ⟨m, hm, rfl, hp⟩ := (hnd k).1 h1
      refine ⟨_, rfl, fun ty f => ?_⟩
      rw [hmod m hm]
      constructor
      · intro he
        injection he with he
        injection he with he1 he2
        subst he1 he2
        exact .module hd hm hp
      · intro hr
        obtain ⟨rfl, rfl, _⟩ := hno ty f hr
        rfl

/-- a list parameter `Mod1` beside a module `Mod` -/
def exShadow : Val := .dict [
  (.str "Parameters", .dict [(.str "Mod1", .dict [(.str "Type", .str "CommaDelimitedList")])]),
  (.str "Resources", .dict [(.str "Mod", .dict [(.str "Type", .str "My::Own::Thing::MODULE")])])]

theorem exShadow_ok : SectionsOk exShadow := by
  have hw : exShadow.WF := by simp [exShadow, Val.WF, Val.WFDict]
  refine ⟨hw, ⟨_, rfl⟩, ?_, ?_⟩
  · intro s hs
    rw [exShadow, at_dict_one] at hs
    simp only [List.mem_cons, Prod.mk.injEq, Key.str.injEq, List.not_mem_nil, or_false] at hs
    rcases hs with ⟨_, rfl⟩ | ⟨h, _⟩
    · refine ⟨_, rfl, ?_⟩
      intro kv hkv
      simp only [List.mem_cons, List.not_mem_nil, or_false] at hkv
      subst hkv
      exact ⟨⟨_, rfl, by unfold PlainName; decide⟩, _, rfl⟩
    · simp at h
  · intro s hs
    rw [exShadow, at_dict_one] at hs
    simp only [List.mem_cons, Prod.mk.injEq, Key.str.injEq, List.not_mem_nil, or_false] at hs
    rcases hs with ⟨h, _⟩ | ⟨_, rfl⟩
    · simp at h
    · refine ⟨_, rfl, ?_⟩
      intro kv hkv
      simp only [List.mem_cons, List.not_mem_nil, or_false] at hkv
      subst hkv
      refine ⟨⟨_, rfl, by unfold PlainName; decide⟩, _, rfl, ?_⟩
      intro ty hty
      simp at hty
      exact ⟨_, hty⟩

/-- **C66** The pattern of a module is longer than its name, and wins over a declared name of the same length. -/
theorem C66_module_violated : ¬ C66_statement := by
  intro h
  obtain ⟨tab, htab, hall⟩ := h exRx exShadow exRx_ok exShadow_ok
  obtain ⟨r, hr, hiff⟩ := hall "Mod1"
  have hv : validRefs exShadow >>= (fun tab => regexGet exRx tab (.str "Mod1")) = .ok (some (.str "MODULE", "Resources")) := by decide
  rw [htab] at hv
  have hv' : regexGet exRx tab (.str "Mod1") = .ok (some (.str "MODULE", "Resources")) := hv
  rw [hr] at hv'
  injection hv' with hv'
  subst hv'
  have := (hiff (.str "CommaDelimitedList") "Parameters").2 (.parameter
    (.key List.mem_cons_self (.key List.mem_cons_self (.key List.mem_cons_self .here)))
    (by
      intro x hx
      have := (follow_at exShadow_ok.wf).1 hx
      cases this)
    (by decide))
  simp at this

/-- **C66** A name that only begins with a declared name is taken for it. -/
theorem C66_prefix_violated : ¬ C66_statement := by
  intro h
  obtain ⟨tab, htab, hall⟩ := h exRx (exRefs "Environment" "a" "b" "c") exRx_ok (exRefs_ok _ _ _ _)
  obtain ⟨r, hr, hiff⟩ := hall "Environment"
  have hv : validRefs (exRefs "Environment" "a" "b" "c") >>= (fun tab => regexGet exRx tab (.str "Environment")) =
    .ok (some (.str "String", "Parameters")) := by decide
  rw [htab] at hv
  have hv' : regexGet exRx tab (.str "Environment") = .ok (some (.str "String", "Parameters")) := hv
  rw [hr] at hv'
  injection hv' with hv'
  subst hv'
  have := (hiff _ _).1 rfl
  generalize hf : "Parameters" = f at this
  generalize Val.str "String" = ty at this
  cases this with
  | parameter h1 =>
    have := (follow_at (exRefs_ok _ _ _ _).wf).1 h1
    cases this
  | resource => simp at hf
  | pseudo => simp at hf
  | module => simp at hf

/-- the hypotheses of `C66_lookup_partial` are met -/
example : ∃ tab, validRefs (exRefs "Env" "a" "b" "c") = .ok tab ∧ regexGet exRx tab (.str "Env") = .ok (some (.str "String", "Parameters")) := by
  obtain ⟨tab, h1, h2⟩ := C66_lookup_partial exRx_ok (exRefs_ok "Env" "a" "b" "c")
  have hw := (exRefs_ok "Env" "a" "b" "c").wf
  have hat : At (exRefs "Env" "a" "b" "c") [.str "Parameters", .str "Env", .str "Type"] (.str "String") := (follow_at hw).2 rfl
  have hmod : ∀ m, IsModule (exRefs "Env" "a" "b" "c") m → ¬ m.toList <+: "Env".toList := by
    rintro m ⟨ty, ha, _⟩ hp
    have := (follow_at hw).1 ha
    have hm : m = "Bucket" ∨ m = "Mod" := by
      by_cases h1 : m = "Bucket"
      · exact .inl h1
      · by_cases h2 : m = "Mod"
        · exact .inr h2
        · simp [follow, exRefs, dlookup, Ne.symm h1, Ne.symm h2] at this
    rcases hm with rfl | rfl <;> revert hp <;> decide
  obtain ⟨r, hr, hiff⟩ := h2 "Env" (fun _ _ _ => .parameter hat) (fun _ m hm hp => absurd hp (hmod m hm))
  refine ⟨tab, h1, ?_⟩
  rw [hr]
  rw [(hiff (.str "String") "Parameters").2 (.parameter hat
    (by
      intro x hx
      have := (follow_at hw).1 hx
      cases this) (by decide))]

end CfnLint
