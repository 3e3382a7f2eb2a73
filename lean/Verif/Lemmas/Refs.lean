import Verif.Model.Refs
import Verif.Spec.Refs
import Verif.Lemmas.PathConds
import Verif.Lemmas.Search
/-
Lemmas for references.
-/
namespace CfnLint
open Spec

theorem paramRefs_keys : ∀ (ps : List (Key × Val)) (acc : RefTable), (∀ kv ∈ ps, ∃ b, kv.2 = .dict b) →
    ∃ a, paramRefs ps acc = .ok a ∧ ∀ k, k ∈ a.map Prod.fst ↔ k ∈ acc.map Prod.fst ∨
      ∃ b, (k, Val.dict b) ∈ ps ∧ (Key.str "Type") ∈ b.map Prod.fst
  | [], acc, _ => ⟨acc, rfl, by simp⟩
  | (n, v) :: ps, acc, h => by
    obtain ⟨b, hb⟩ := h _ List.mem_cons_self
    have hrec := fun acc => paramRefs_keys ps acc (fun x hx => h x (List.mem_cons_of_mem _ hx))
    have hb' : v = .dict b := hb
    subst hb'
    rw [paramRefs]
    simp only [pyIn]
    cases hd : dhas (Key.str "Type") b with
    | false =>
      simp only
      obtain ⟨a, h1, h2⟩ := hrec acc
      refine ⟨a, h1, fun k => ?_⟩
      rw [h2]
      have hn : Key.str "Type" ∉ b.map Prod.fst := fun hm => by rw [dhas_iff.2 hm] at hd; cases hd
      constructor
      · rintro (h | ⟨c, hc, hm⟩)
        · exact .inl h
        · exact .inr ⟨c, List.mem_cons_of_mem _ hc, hm⟩
      · rintro (h | ⟨c, hc, hm⟩)
        · exact .inl h
        · rcases List.mem_cons.1 hc with hc | hc
          · injection hc with _ hc
            injection hc with hc
            subst hc
            exact absurd hm hn
          · exact .inr ⟨c, hc, hm⟩
    | true =>
      simp only
      have hm := dhas_iff.1 hd
      cases hl : dlookup (Key.str "Type") b with
      | none => exact absurd hm (dlookup_none_iff.1 hl)
      | some ty =>
        simp only [Val.subscript, hl]
        obtain ⟨a, h1, h2⟩ := hrec (dset n (ty, "Parameters") acc)
        refine ⟨a, h1, fun k => ?_⟩
        rw [h2]
        constructor
        · rintro (h | ⟨c, hc, hm⟩)
          · obtain ⟨x, hx, rfl⟩ := List.mem_map.1 h
            rcases dset_mem hx with rfl | hx
            · exact .inr ⟨b, List.mem_cons_self, hm⟩
            · exact .inl (List.mem_map_of_mem hx)
          · exact .inr ⟨c, List.mem_cons_of_mem _ hc, hm⟩
        · rintro (h | ⟨c, hc, hm⟩)
          · refine .inl ?_
            rw [← dhas_iff, dhas, dlookup_dset]
            split
            · rfl
            · exact dhas_iff.2 h
          · rcases List.mem_cons.1 hc with hc | hc
            · injection hc with hc _
              subst hc
              refine .inl ?_
              rw [← dhas_iff, dhas, dlookup_dset, if_pos rfl]
              rfl
            · exact .inr ⟨c, hc, hm⟩

theorem mem_dset_keys {β : Type} {k k' : Key} {v : β} {d : List (Key × β)} :
    k' ∈ (dset k v d).map Prod.fst ↔ k' = k ∨ k' ∈ d.map Prod.fst := by
  rw [← dhas_iff, ← dhas_iff, dhas, dhas, dlookup_dset]
  by_cases h : k = k'
  · subst h; simp
  · rw [if_neg h]
    constructor
    · exact .inr
    · rintro (h' | h')
      · exact absurd h'.symm h
      · exact h'

/-- what the loop over the resources adds to the keys -/
def AddedKey (rs : List (Key × Val)) (k : Key) : Prop :=
  (∃ b ty, (k, Val.dict b) ∈ rs ∧ dlookup (Key.str "Type") b = some (.str ty) ∧ ty ≠ "" ∧
    endsWith ty "::MODULE" = false) ∨
  (∃ n b ty, (n, Val.dict b) ∈ rs ∧ dlookup (Key.str "Type") b = some (.str ty) ∧
    endsWith ty "::MODULE" = true ∧ k = .str (keyText n ++ ".*"))

theorem resourceRefs_keys : ∀ (rs : List (Key × Val)) (acc : RefTable),
    (∀ kv ∈ rs, ∃ b, kv.2 = .dict b ∧ ∀ ty, dlookup (Key.str "Type") b = some ty → ∃ x, ty = .str x) →
    ∃ a, resourceRefs rs acc = .ok a ∧ ∀ k, k ∈ a.map Prod.fst ↔ k ∈ acc.map Prod.fst ∨ AddedKey rs k
  | [], acc, _ => ⟨acc, rfl, by simp [AddedKey]⟩
  | (n, v) :: rs, acc, h => by
    obtain ⟨b, hb, hty⟩ := h _ List.mem_cons_self
    have hrec := fun acc => resourceRefs_keys rs acc (fun x hx => h x (List.mem_cons_of_mem _ hx))
    have hb' : v = .dict b := hb
    subst hb'
    have hmono : ∀ k, AddedKey rs k → AddedKey ((n, .dict b) :: rs) k := by
      rintro k (⟨c, ty, h1, h2⟩ | ⟨m, c, ty, h1, h2⟩)
      · exact .inl ⟨c, ty, List.mem_cons_of_mem _ h1, h2⟩
      · exact .inr ⟨m, c, ty, List.mem_cons_of_mem _ h1, h2⟩
    -- what the head adds
    have hhead : ∀ k, AddedKey ((n, .dict b) :: rs) k ↔ AddedKey rs k ∨
        (∃ ty, dlookup (Key.str "Type") b = some (.str ty) ∧ ((ty ≠ "" ∧ endsWith ty "::MODULE" = false ∧ k = n) ∨
          (endsWith ty "::MODULE" = true ∧ k = .str (keyText n ++ ".*")))) := by
      intro k
      constructor
      · rintro (⟨c, ty, h1, h2, h3, h4⟩ | ⟨m, c, ty, h1, h2, h3, h4⟩)
        · rcases List.mem_cons.1 h1 with h1 | h1
          · injection h1 with h5 h6
            injection h6 with h6
            subst h5 h6
            exact .inr ⟨ty, h2, .inl ⟨h3, h4, rfl⟩⟩
          · exact .inl (.inl ⟨c, ty, h1, h2, h3, h4⟩)
        · rcases List.mem_cons.1 h1 with h1 | h1
          · injection h1 with h5 h6
            injection h6 with h6
            subst h5 h6
            exact .inr ⟨ty, h2, .inr ⟨h3, h4⟩⟩
          · exact .inl (.inr ⟨m, c, ty, h1, h2, h3, h4⟩)
      · rintro (h | ⟨ty, h1, ⟨h2, h3, rfl⟩ | ⟨h2, rfl⟩⟩)
        · exact hmono k h
        · exact .inl ⟨b, ty, List.mem_cons_self, h1, h2, h3⟩
        · exact .inr ⟨n, b, ty, List.mem_cons_self, h1, h2, rfl⟩
    rw [resourceRefs]
    simp only [Val.getD]
    cases hl : dlookup (Key.str "Type") b with
    | none =>
      simp only [Option.getD_none]
      rw [if_neg (by decide), if_neg (by decide)]
      obtain ⟨a, h1, h2⟩ := hrec acc
      refine ⟨a, h1, fun k => ?_⟩
      rw [h2, hhead, hl]
      simp
    | some ty =>
      obtain ⟨x, rfl⟩ := hty ty hl
      simp only [Option.getD_some]
      by_cases hm : endsWith x "::MODULE" = true
      · rw [if_pos hm]
        obtain ⟨a, h1, h2⟩ := hrec (dset (.str (keyText n ++ ".*")) (.str "MODULE", "Resources") acc)
        refine ⟨a, h1, fun k => ?_⟩
        rw [h2, hhead, hl, mem_dset_keys]
        constructor
        · rintro ((rfl | h) | h)
          · exact .inr (.inr ⟨x, rfl, .inr ⟨hm, rfl⟩⟩)
          · exact .inl h
          · exact .inr (.inl h)
        · rintro (h | h | ⟨ty, h3, h4⟩)
          · exact .inl (.inr h)
          · exact .inr h
          · injection h3 with h3
            injection h3 with h3
            subst h3
            rcases h4 with ⟨_, h4, _⟩ | ⟨_, rfl⟩
            · rw [hm] at h4; cases h4
            · exact .inl (.inl rfl)
      · rw [if_neg hm]
        by_cases hx : x = ""
        · rw [if_neg (by simpa using hx)]
          obtain ⟨a, h1, h2⟩ := hrec acc
          refine ⟨a, h1, fun k => ?_⟩
          rw [h2, hhead, hl]
          constructor
          · rintro (h | h)
            · exact .inl h
            · exact .inr (.inl h)
          · rintro (h | h | ⟨ty, h3, h4⟩)
            · exact .inl h
            · exact .inr h
            · injection h3 with h3
              injection h3 with h3
              subst h3
              rcases h4 with ⟨h4, _⟩ | ⟨h4, _⟩
              · exact absurd hx h4
              · exact absurd h4 hm
        · rw [if_pos (by simpa using hx)]
          obtain ⟨a, h1, h2⟩ := hrec (dset n (.str x, "Resources") acc)
          refine ⟨a, h1, fun k => ?_⟩
          rw [h2, hhead, hl, mem_dset_keys]
          constructor
          · rintro ((rfl | h) | h)
            · exact .inr (.inr ⟨x, rfl, .inl ⟨hx, by simpa using hm, rfl⟩⟩)
            · exact .inl h
            · exact .inr (.inl h)
          · rintro (h | h | ⟨ty, h3, h4⟩)
            · exact .inl (.inr h)
            · exact .inr h
            · injection h3 with h3
              injection h3 with h3
              subst h3
              rcases h4 with ⟨_, _, rfl⟩ | ⟨h4, _⟩
              · exact .inl (.inl rfl)
              · exact absurd h4 hm

theorem pseudoRefs_keys (acc : RefTable) (k : Key) : k ∈ (pseudoRefs acc).map Prod.fst ↔
    k ∈ acc.map Prod.fst ∨ ∃ s ∈ pseudoNames, k = .str s := by
  have : ∀ (l : List String) (acc : RefTable), k ∈ (l.foldl (fun a p => dset (.str p) (.str "Pseudo", "Pseduo") a)
      acc : RefTable).map Prod.fst ↔ k ∈ acc.map Prod.fst ∨ ∃ s ∈ l, k = .str s := by
    intro l
    induction l with
    | nil => intro acc; simp
    | cons x l ih =>
      intro acc
      rw [List.foldl_cons, ih, mem_dset_keys]
      constructor
      · rintro ((rfl | h) | ⟨s, hs, rfl⟩)
        · exact .inr ⟨x, List.mem_cons_self, rfl⟩
        · exact .inl h
        · exact .inr ⟨s, List.mem_cons_of_mem _ hs, rfl⟩
      · rintro (h | ⟨s, hs, rfl⟩)
        · exact .inl (.inr h)
        · rcases List.mem_cons.1 hs with rfl | hs
          · exact .inl (.inl rfl)
          · exact .inr ⟨s, hs, rfl⟩
  exact this pseudoParams acc

theorem endsWith_iff {s suf : String} : endsWith s suf = true ↔ suf.toList <:+ s.toList := by
  unfold endsWith
  exact List.isSuffixOf_iff_suffix

theorem at_two {t w : Val} {k k' : Key} {s : Val} (hw : t.WF) (hs : At t [k] s) :
    At t [k, k'] w ↔ At s [k'] w := by
  rw [at_cons]
  constructor
  · rintro ⟨c, hc, h⟩
    rwa [at_unique hw hs hc]
  · exact fun h => ⟨s, hs, h⟩

theorem at_dict_one {kvs : List (Key × Val)} {k : Key} {w : Val} : At (.dict kvs) [k] w ↔ (k, w) ∈ kvs := by
  constructor
  · intro h
    cases h with
    | key hm h => cases h; exact hm
  · exact fun h => .key h .here

/-- the items of a section that is absent or an object -/
theorem sectionItems_ok {kvs : List (Key × Val)} {name : String} (hw : (Val.dict kvs).WF)
    (hs : ∀ s, At (.dict kvs) [.str name] s → ∃ l, s = .dict l) :
    ∃ l, sectionItems (.dict kvs) name = .ok l ∧
      ∀ k v, (k, v) ∈ l ↔ At (.dict kvs) [.str name, k] v := by
  unfold sectionItems
  simp only [Val.getD]
  cases hl : dlookup (Key.str name) kvs with
  | none =>
    refine ⟨[], rfl, fun k v => ?_⟩
    constructor
    · intro h; cases h
    · intro h
      rw [at_cons] at h
      obtain ⟨c, hc, _⟩ := h
      rw [at_dict_one] at hc
      exact absurd (List.mem_map_of_mem (f := Prod.fst) hc) (dlookup_none_iff.1 hl)
  | some s =>
    have hat : At (.dict kvs) [.str name] s := at_dict_one.2 (dlookup_mem hl)
    obtain ⟨l, rfl⟩ := hs s hat
    simp only [Option.getD_some]
    cases l with
    | nil =>
      refine ⟨[], rfl, fun k v => ?_⟩
      rw [at_two hw hat, at_dict_one]
    | cons x l =>
      refine ⟨x :: l, rfl, fun k v => ?_⟩
      rw [at_two hw hat, at_dict_one]

/-- the keys of the table of valid references -/
theorem validRefs_keys {t : Val} (h : SectionsOk t) :
    ∃ tab, validRefs t = .ok tab ∧ ∀ k, k ∈ tab.map Prod.fst ↔
      (∃ s, k = .str s ∧ Declared t s) ∨ ∃ m, IsModule t m ∧ k = .str (m ++ ".*") := by
  obtain ⟨kvs, rfl⟩ := h.top
  obtain ⟨ps, hps, hpm⟩ := sectionItems_ok (name := "Parameters") h.wf (fun s hs => by
    obtain ⟨l, hl, _⟩ := h.params s hs
    exact ⟨l, hl⟩)
  obtain ⟨rs, hrs, hrm⟩ := sectionItems_ok (name := "Resources") h.wf (fun s hs => by
    obtain ⟨l, hl, _⟩ := h.resources s hs
    exact ⟨l, hl⟩)
  have hp : ∀ kv ∈ ps, (∃ n, kv.1 = .str n) ∧ ∃ b, kv.2 = .dict b := by
    rintro ⟨k, v⟩ hkv
    have ha := (hpm k v).1 hkv
    rw [at_cons] at ha
    obtain ⟨c, hc, ha⟩ := ha
    obtain ⟨l, rfl, hall⟩ := h.params c hc
    obtain ⟨⟨n, hn, _⟩, b, hb⟩ := hall _ (at_dict_one.1 ha)
    exact ⟨⟨n, hn⟩, b, hb⟩
  have hr : ∀ kv ∈ rs, (∃ n, kv.1 = .str n) ∧ ∃ b, kv.2 = .dict b ∧ (Val.dict b).WF ∧
      ∀ ty, dlookup (Key.str "Type") b = some ty → ∃ x, ty = .str x := by
    rintro ⟨k, v⟩ hkv
    have ha := (hrm k v).1 hkv
    have ha' := ha
    rw [at_cons] at ha
    obtain ⟨c, hc, ha⟩ := ha
    obtain ⟨l, rfl, hall⟩ := h.resources c hc
    obtain ⟨⟨n, hn, _⟩, b, hb, hty⟩ := hall _ (at_dict_one.1 ha)
    have hb' : v = .dict b := hb
    subst hb'
    exact ⟨⟨n, hn⟩, b, rfl, at_wf ha' h.wf, fun ty hl => hty ty (dlookup_mem hl)⟩
  obtain ⟨a, ha1, ha2⟩ := paramRefs_keys ps [] (fun kv hkv => (hp kv hkv).2)
  obtain ⟨b, hb1, hb2⟩ := resourceRefs_keys rs a (fun kv hkv => by
    obtain ⟨_, b, h1, _, h2⟩ := hr kv hkv
    exact ⟨b, h1, h2⟩)
  refine ⟨pseudoRefs b, by simp only [validRefs, hps, ha1, hrs, hb1], fun k => ?_⟩
  rw [pseudoRefs_keys, hb2, ha2]
  -- types of resources
  have htype : ∀ n b, (Key.str n, Val.dict b) ∈ rs → ∀ ty, dlookup (Key.str "Type") b = some (.str ty) →
      At (.dict kvs) [.str "Resources", .str n, .str "Type"] (.str ty) := by
    intro n b hm ty hl
    have := (hrm _ _).1 hm
    rw [at_cons] at this ⊢
    obtain ⟨c, hc, hx⟩ := this
    refine ⟨c, hc, ?_⟩
    rw [at_cons]
    exact ⟨_, hx, at_dict_one.2 (dlookup_mem hl)⟩
  have htype' : ∀ n ty, At (.dict kvs) [.str "Resources", .str n, .str "Type"] (.str ty) →
      ∃ b, (Key.str n, Val.dict b) ∈ rs ∧ dlookup (Key.str "Type") b = some (.str ty) := by
    intro n ty ha
    rw [at_cons] at ha
    obtain ⟨c, hc, ha⟩ := ha
    rw [at_cons] at ha
    obtain ⟨d, hd, ha⟩ := ha
    have hm : (Key.str n, d) ∈ rs := (hrm _ _).2 (by rw [at_cons]; exact ⟨c, hc, hd⟩)
    obtain ⟨_, b, hb, hwb, _⟩ := hr _ hm
    have hb' : d = .dict b := hb
    subst hb'
    exact ⟨b, hm, dlookup_of_mem hwb.1 (at_dict_one.1 ha)⟩
  have hmod : ∀ n, IsModule (.dict kvs) n ↔ ∃ b ty, (Key.str n, Val.dict b) ∈ rs ∧
      dlookup (Key.str "Type") b = some (.str ty) ∧ endsWith ty "::MODULE" = true := by
    intro n
    constructor
    · rintro ⟨ty, h1, h2⟩
      obtain ⟨b, hb, hl⟩ := htype' n ty h1
      exact ⟨b, ty, hb, hl, endsWith_iff.2 h2⟩
    · rintro ⟨b, ty, hb, hl, h2⟩
      exact ⟨ty, htype n b hb ty hl, endsWith_iff.1 h2⟩
  constructor
  · rintro (((h0 | ⟨b, h1, h2⟩) | h1) | ⟨s, hs, rfl⟩)
    · cases h0
    · obtain ⟨⟨n, hn⟩, _⟩ := hp _ h1
      have hn' : k = .str n := hn
      subst hn'
      refine .inl ⟨n, rfl, ?_⟩
      obtain ⟨⟨a', ty⟩, hx, hxt⟩ := List.mem_map.1 h2
      have hxt' : a' = .str "Type" := hxt
      subst hxt'
      refine .parameter (ty := ty) ?_
      have := (hpm _ _).1 h1
      rw [at_cons] at this ⊢
      obtain ⟨c, hc, hy⟩ := this
      refine ⟨c, hc, ?_⟩
      rw [at_cons]
      exact ⟨_, hy, at_dict_one.2 hx⟩
    · rcases h1 with ⟨b, ty, h1, h2, h3, h4⟩ | ⟨m, b, ty, h1, h2, h3, rfl⟩
      · obtain ⟨⟨n, hn⟩, _⟩ := hr _ h1
        have hn' : k = .str n := hn
        subst hn'
        refine .inl ⟨n, rfl, .resource (htype n b h1 ty h2) h3 ?_⟩
        rw [hmod]
        rintro ⟨b', ty', hm', hl', he⟩
        have h5 := htype n b h1 ty h2
        have h6 := htype n b' hm' ty' hl'
        have : ∀ {p : Path} {u v w : Val}, u.WF → At u p v → At u p w → v = w := by
          intro p
          induction p with
          | nil => intro u v w _ h7 h8; cases h7; cases h8; rfl
          | cons k p ih =>
            intro u v w hu h7 h8
            rw [at_cons] at h7 h8
            obtain ⟨c, hc, h7⟩ := h7
            obtain ⟨d, hd, h8⟩ := h8
            have := at_unique hu hc hd
            subst this
            exact ih (at_wf hc hu) h7 h8
        have := this h.wf h5 h6
        injection this with this
        subst this
        rw [he] at h4
        cases h4
      · obtain ⟨⟨n, hn⟩, _⟩ := hr _ h1
        have hn' : m = .str n := hn
        subst hn'
        exact .inr ⟨n, (hmod n).2 ⟨b, ty, h1, h2, h3⟩, rfl⟩
    · exact .inl ⟨s, rfl, .pseudo hs⟩
  · rintro (⟨s, rfl, hd⟩ | ⟨m, hm, rfl⟩)
    · cases hd with
      | parameter ha =>
        rename_i ty
        refine .inl (.inl (.inr ?_))
        rw [at_cons] at ha
        obtain ⟨c, hc, ha⟩ := ha
        rw [at_cons] at ha
        obtain ⟨d, hd, ha⟩ := ha
        have hm : (Key.str s, d) ∈ ps := (hpm _ _).2 (by rw [at_cons]; exact ⟨c, hc, hd⟩)
        obtain ⟨_, b, hb⟩ := hp _ hm
        have hb' : d = .dict b := hb
        subst hb'
        exact ⟨b, hm, List.mem_map_of_mem (f := Prod.fst) (at_dict_one.1 ha)⟩
      | resource ha hne hnm =>
        rename_i ty
        obtain ⟨b, hm, hl⟩ := htype' s ty ha
        refine .inl (.inr (.inl ⟨b, ty, hm, hl, hne, ?_⟩))
        cases he : endsWith ty "::MODULE" with
        | false => rfl
        | true => exact absurd ((hmod s).2 ⟨b, ty, hm, hl, he⟩) hnm
      | pseudo hs => exact .inr ⟨s, hs, rfl⟩
    · obtain ⟨b, ty, h1, h2, h3⟩ := (hmod m).1 hm
      exact .inl (.inr (.inr ⟨.str m, b, ty, h1, h2, h3, rfl⟩))

theorem declared_plain {t : Val} (h : SectionsOk t) {s : String} (hd : Declared t s) : PlainName s := by
  have hsec : ∀ sec ty, (sec = "Parameters" ∨ sec = "Resources") →
      At t [.str sec, .str s, .str "Type"] ty → PlainName s := by
    intro sec ty hsec ha
    rw [at_cons] at ha
    obtain ⟨c, hc, ha⟩ := ha
    rw [at_cons] at ha
    obtain ⟨d, hd, ha⟩ := ha
    rcases hsec with rfl | rfl
    · obtain ⟨l, rfl, hall⟩ := h.params c hc
      obtain ⟨⟨n, hn, hpn⟩, _⟩ := hall _ (at_dict_one.1 hd)
      injection hn with hn
      exact hn ▸ hpn
    · obtain ⟨l, rfl, hall⟩ := h.resources c hc
      obtain ⟨⟨n, hn, hpn⟩, _⟩ := hall _ (at_dict_one.1 hd)
      injection hn with hn
      exact hn ▸ hpn
  cases hd with
  | parameter ha => exact hsec _ _ (.inl rfl) ha
  | resource ha _ _ => exact hsec _ _ (.inr rfl) ha
  | pseudo hs =>
    have : ∀ s ∈ pseudoNames, PlainName s := by unfold PlainName; decide
    exact this s hs

theorem module_plain {t : Val} (h : SectionsOk t) {m : String} (hm : IsModule t m) : PlainName m := by
  obtain ⟨ty, ha, _⟩ := hm
  rw [at_cons] at ha
  obtain ⟨c, hc, ha⟩ := ha
  rw [at_cons] at ha
  obtain ⟨d, hd, ha⟩ := ha
  obtain ⟨l, rfl, hall⟩ := h.resources c hc
  obtain ⟨⟨n, hn, hpn⟩, _⟩ := hall _ (at_dict_one.1 hd)
  injection hn with hn
  exact hn ▸ hpn

theorem regexContains_spec {rx : String → String → PyM Bool} (hrx : MatchesPrefixes rx) (s : String) :
    ∀ keys : List Key, (∀ k ∈ keys, ∃ n, PlainName n ∧ (k = .str n ∨ k = .str (n ++ ".*"))) →
    ∃ b, regexContains rx keys (.str s) = .ok b ∧ (b = true ↔ ∃ n, PlainName n ∧
      (Key.str n ∈ keys ∨ Key.str (n ++ ".*") ∈ keys) ∧ n.toList <+: s.toList)
  | [], _ => ⟨false, rfl, by simp⟩
  | k :: ks, h => by
    obtain ⟨n, hn, hk⟩ := h k List.mem_cons_self
    obtain ⟨b, hb1, hb2⟩ := regexContains_spec hrx s ks (fun x hx => h x (List.mem_cons_of_mem _ hx))
    obtain ⟨h1, h2⟩ := hrx n s hn
    have hstep : regexContains rx (k :: ks) (.str s) = .ok (decide (n.toList <+: s.toList) || b) := by
      rcases hk with rfl | rfl
      · rw [regexContains]
        simp only [h1]
        by_cases hp : n.toList <+: s.toList
        · simp [hp]
        · simp [hp, hb1]
      · rw [regexContains]
        simp only [h2]
        by_cases hp : n.toList <+: s.toList
        · simp [hp]
        · simp [hp, hb1]
    refine ⟨_, hstep, ?_⟩
    rw [Bool.or_eq_true, decide_eq_true_iff, hb2]
    constructor
    · rintro (hp | ⟨m, hm, hk', hp⟩)
      · refine ⟨n, hn, ?_, hp⟩
        rcases hk with rfl | rfl
        · exact .inl List.mem_cons_self
        · exact .inr List.mem_cons_self
      · exact ⟨m, hm, hk'.imp (List.mem_cons_of_mem _) (List.mem_cons_of_mem _), hp⟩
    · rintro ⟨m, hm, hk', hp⟩
      have dot : ∀ a b : String, PlainName a → a ≠ b ++ ".*" := by
        rintro a b ha rfl
        have := ha '.' (by rw [String.toList_append]; exact List.mem_append_right _ (by decide))
        exact this (by decide)
      rcases hk' with hk' | hk'
      · rcases List.mem_cons.1 hk' with he | hk'
        · rcases hk with rfl | rfl
          · injection he with he; subst he; exact .inl hp
          · injection he with he; exact absurd he (dot _ _ hm)
        · exact .inr ⟨m, hm, .inl hk', hp⟩
      · rcases List.mem_cons.1 hk' with he | hk'
        · rcases hk with rfl | rfl
          · injection he with he; exact absurd he.symm (dot _ _ hn)
          · injection he with he
            have : m = n := by
              have := congrArg String.toList he
              rw [String.toList_append, String.toList_append] at this
              exact String.toList_inj.1 (List.append_cancel_right this)
            subst this
            exact .inl hp
        · exact .inr ⟨m, hm, .inr hk', hp⟩

end CfnLint
