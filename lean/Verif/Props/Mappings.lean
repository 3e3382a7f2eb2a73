import Verif.Model.Mappings
import Verif.Spec.Mappings
import Verif.Props.CondGrammar
/- Properties of the rules on mappings (C69, C70). -/
namespace CfnLint
open Spec

/-- **C69** Rule E7001 reports exactly the places where the mappings are not maps of maps of values. -/
theorem C69_mappings {t : Val} (hw : t.WF) (ht : ∃ kvs, t = .dict kvs) (hm : MappingsObject t) :
    ∃ res, mappingsRule t = .ok res ∧ ∀ p, p ∈ res ↔ BadMapping t p := by
  obtain ⟨kvs, rfl⟩ := ht
  obtain ⟨ms, hms, hmem⟩ := sectionItems_ok (name := "Mappings") hw hm
  unfold mappingsRule
  rw [hms]
  refine ⟨_, rfl, fun p => ?_⟩
  have hv : ∀ v, mapValueOk v = true ↔ MapValue v := by intro v; cases v <;> simp [mapValueOk, MapValue]
  have h1 : ∀ {m k : Key} {kvs' : List (Key × Val)} {v : Val}, At (.dict kvs) [.str "Mappings", m] (.dict kvs') → (k, v) ∈ kvs' →
      At (.dict kvs) [.str "Mappings", m, k] v := by
    intro m k kvs' v h h2
    exact at_append h (.key h2 .here)
  have h2 : ∀ {m k k' : Key} {kvs' : List (Key × Val)} {v : Val}, At (.dict kvs) [.str "Mappings", m, k] (.dict kvs') → (k', v) ∈ kvs' →
      At (.dict kvs) [.str "Mappings", m, k, k'] v := by
    intro m k k' kvs' v h h2
    exact at_append h (.key h2 .here)
  rw [List.mem_flatMap]
  constructor
  · rintro ⟨⟨m, v⟩, hmv, hp⟩
    have hat := (hmem m v).1 hmv
    cases v with
    | dict l =>
      simp only [List.mem_flatMap] at hp
      obtain ⟨⟨k, w⟩, hkw, hp⟩ := hp
      cases w with
      | dict l' =>
        simp only [mapFirst, List.mem_flatMap] at hp
        obtain ⟨⟨k', u⟩, hku, hp⟩ := hp
        unfold mapSecond at hp
        split at hp
        · cases hp
        · rename_i hu
          simp only [List.mem_cons, List.not_mem_nil, or_false] at hp
          subst hp
          exact .value hat (h1 hat hkw) (h2 (h1 hat hkw) hku) (fun h => hu ((hv _).2 h))
      | _ =>
        simp only [mapFirst, List.mem_cons, List.not_mem_nil, or_false] at hp
        subst hp
        exact .first hat (h1 hat hkw) (by simp)
    | _ =>
      simp only [List.mem_cons, List.not_mem_nil, or_false] at hp
      subst hp
      exact .map hat (by simp)
  · intro hb
    have h3 : ∀ {m k : Key} {l : List (Key × Val)} {v : Val}, At (.dict kvs) [.str "Mappings", m] (.dict l) →
        At (.dict kvs) [.str "Mappings", m, k] v → (k, v) ∈ l := by
      intro m k l v h h'
      obtain ⟨u, h4, h5⟩ := at_split (p := [.str "Mappings", m]) (q := [k]) h'
      rw [← at_det hw h h4] at h5
      exact at_dict_one.1 h5
    have h4 : ∀ {m k k' : Key} {l : List (Key × Val)} {v : Val}, At (.dict kvs) [.str "Mappings", m, k] (.dict l) →
        At (.dict kvs) [.str "Mappings", m, k, k'] v → (k', v) ∈ l := by
      intro m k k' l v h h'
      obtain ⟨u, h4, h5⟩ := at_split (p := [.str "Mappings", m, k]) (q := [k']) h'
      rw [← at_det hw h h4] at h5
      exact at_dict_one.1 h5
    cases hb with
    | map hat hn =>
      rename_i m v
      refine ⟨(m, v), (hmem m v).2 hat, ?_⟩
      cases v with
      | dict l => exact absurd rfl (hn l)
      | _ => exact List.mem_cons_self
    | first hat hat' hn =>
      rename_i m k v l
      refine ⟨(m, _), (hmem m _).2 hat, List.mem_flatMap.2 ⟨(k, v), h3 hat hat', ?_⟩⟩
      cases v with
      | dict l => exact absurd rfl (hn l)
      | _ => exact List.mem_cons_self
    | value hat hat' hat'' hn =>
      rename_i m k k' v l l'
      refine ⟨(m, _), (hmem m _).2 hat, List.mem_flatMap.2 ⟨(k, _), h3 hat hat', ?_⟩⟩
      refine List.mem_flatMap.2 ⟨(k', v), h4 hat' hat'', ?_⟩
      unfold mapSecond
      rw [if_neg (fun h => hn ((hv _).1 h))]
      exact List.mem_cons_self

theorem keyValue_iff {v : Val} {k : Key} : KeyValue v k ↔ toKey v = some k := by
  constructor
  · intro h
    cases h <;> rfl
  · intro h
    cases v with
    | str s => simp only [toKey, Option.some.injEq] at h; subst h; exact .str
    | int i => simp only [toKey, Option.some.injEq] at h; subst h; exact .int
    | bool b =>
      simp only [toKey, Option.some.injEq] at h
      subst h
      cases b
      · exact .false
      · exact .true
    | _ => cases h

theorem mappingsOf_ok {kvs : List (Key × Val)} (hw : (Val.dict kvs).WF) (hm : MappingsObject (.dict kvs)) :
    ∃ ms, mappingsOf (.dict kvs) = .ok (.dict ms) ∧ (ms.map Prod.fst).Nodup ∧
      ∀ k v, (k, v) ∈ ms ↔ At (.dict kvs) [.str "Mappings", k] v := by
  unfold mappingsOf
  simp only [Val.getD]
  cases hl : dlookup (Key.str "Mappings") kvs with
  | none =>
    refine ⟨[], rfl, by simp, fun k v => ?_⟩
    simp only [List.not_mem_nil, false_iff]
    intro h
    obtain ⟨c, h1, _⟩ := at_cons.1 h
    rw [at_dict_one] at h1
    rw [dlookup_of_mem hw.1 h1] at hl
    cases hl
  | some s =>
    have hat : At (.dict kvs) [.str "Mappings"] s := at_dict_one.2 (dlookup_mem hl)
    obtain ⟨ms, rfl⟩ := hm s hat
    have hn : (ms.map Prod.fst).Nodup := (at_wf hat hw).1
    have hiff : ∀ k v, (k, v) ∈ ms ↔ At (.dict kvs) [.str "Mappings", k] v := by
      intro k v
      constructor
      · intro h
        exact at_append hat (.key h .here)
      · intro h
        obtain ⟨c, h1, h2⟩ := at_cons.1 h
        rw [← at_unique hw hat h1] at h2
        exact at_dict_one.1 h2
    cases ms with
    | nil => exact ⟨[], rfl, hn, hiff⟩
    | cons x xs => exact ⟨_, rfl, hn, hiff⟩

theorem mem_findInMapDict {kvs : List (Key × Val)} {path p : Path} : p ∈ findInMapDict kvs path ↔
    (p = path ∧ kvs.length ≠ 1) ∨ ∃ k w, kvs = [(k, w)] ∧ p = path ++ [k] ∧ ∀ f ∈ innerFunctions, k ≠ .str f := by
  have hk : ∀ k : Key, k ∉ findInMapFunctions ↔ ∀ f ∈ innerFunctions, k ≠ .str f := by
    intro k
    simp [findInMapFunctions, innerFunctions]
  unfold findInMapDict
  match kvs with
  | [] => simp
  | _ :: _ :: _ => simp
  | [(k, w)] =>
    simp only [List.length_cons, List.length_nil, Nat.zero_add, if_true, ne_eq, not_true_eq_false, and_false, false_or]
    constructor
    · intro hp
      obtain ⟨⟨k', w'⟩, h1, rfl⟩ := List.mem_map.1 hp
      obtain ⟨h1, h2⟩ := List.mem_filter.1 h1
      simp only [List.mem_cons, List.not_mem_nil, or_false] at h1
      obtain ⟨rfl, rfl⟩ := Prod.mk.inj h1
      exact ⟨k', w', rfl, rfl, (hk _).1 (by simpa using h2)⟩
    · rintro ⟨k', w', e, rfl, hf⟩
      injection e with e
      obtain ⟨rfl, rfl⟩ := Prod.mk.inj e
      exact List.mem_map.2 ⟨(k, w), List.mem_filter.2 ⟨List.mem_cons_self, by simpa using (hk _).2 hf⟩, rfl⟩

theorem mem_findInMapKey {v : Val} {i : Int} {path p : Path} : p ∈ findInMapKey v i path ↔
    (p = path ++ [.int i] ∧ (∀ k, ¬ KeyValue v k) ∧ ∀ kvs, v ≠ .dict kvs) ∨
    ∃ kvs, v = .dict kvs ∧ p ∈ findInMapDict kvs (path ++ [.int i]) := by
  cases v with
  | str s =>
    simp only [findInMapKey, List.not_mem_nil, false_iff]
    rintro (⟨_, h, _⟩ | ⟨_, h, _⟩)
    · exact h _ .str
    · simp at h
  | int s =>
    simp only [findInMapKey, List.not_mem_nil, false_iff]
    rintro (⟨_, h, _⟩ | ⟨_, h, _⟩)
    · exact h _ .int
    · simp at h
  | bool s =>
    simp only [findInMapKey, List.not_mem_nil, false_iff]
    rintro (⟨_, h, _⟩ | ⟨_, h, _⟩)
    · exact h _ (keyValue_iff.2 rfl)
    · simp at h
  | dict kvs =>
    simp only [findInMapKey]
    constructor
    · intro h; exact .inr ⟨kvs, rfl, h⟩
    · rintro (⟨_, _, h⟩ | ⟨l, e, h⟩)
      · exact absurd rfl (h kvs)
      · injection e with e; subst e; exact h
  | none => simp [findInMapKey, keyValue_iff, toKey]
  | flt s => simp [findInMapKey, keyValue_iff, toKey]
  | list s => simp [findInMapKey, keyValue_iff, toKey]

theorem mem_findFIM {t : Val} (hw : t.WF) {p : Path} {v : Val} : (p, v) ∈ searchDeepKeys "Fn::FindInMap" t (.dict []) ↔
    ∃ q, p = q ++ [.str "Fn::FindInMap"] ∧ At t p v := by
  rw [(C27_search_partial "Fn::FindInMap" t hw).1]
  constructor
  · rintro ⟨h, q, e⟩; exact ⟨q, e, h⟩
  · rintro ⟨q, e, h⟩; exact ⟨h, q, e⟩

theorem pyIn_maps {kvs ms : List (Key × Val)} (hn : (ms.map Prod.fst).Nodup)
    (hms : ∀ k v, (k, v) ∈ ms ↔ At (.dict kvs) [.str "Mappings", k] v) (m : String) :
    dhas (Key.str m) ms = true ↔ ∃ v, At (.dict kvs) [.str "Mappings", .str m] v := by
  unfold dhas
  cases hl : dlookup (Key.str m) ms with
  | none =>
    simp only [Option.isSome_none, Bool.false_eq_true, false_iff]
    rintro ⟨w, hw⟩
    rw [dlookup_of_mem hn ((hms _ _).2 hw)] at hl
    cases hl
  | some w => simp only [Option.isSome_some, true_iff]; exact ⟨w, (hms _ _).1 (dlookup_mem hl)⟩

theorem findInMapName_spec {kvs ms : List (Key × Val)} (hn : (ms.map Prod.fst).Nodup)
    (hms : ∀ k v, (k, v) ∈ ms ↔ At (.dict kvs) [.str "Mappings", k] v) (a : Val) (path : Path) :
    ∃ l, findInMapName a (.dict ms) path = .ok l ∧ ∀ p, p ∈ l ↔
      (p = path ++ [.int 0] ∧ ∃ m, a = .str m ∧ ∀ v, ¬ At (.dict kvs) [.str "Mappings", .str m] v) ∨
      (p = path ++ [.int 0] ∧ (∀ s, a ≠ .str s) ∧ ∀ l, a ≠ .dict l) ∨
      ∃ l, a = .dict l ∧ p ∈ findInMapDict l (path ++ [.int 0]) := by
  cases a with
  | str m =>
    simp only [findInMapName, pyIn]
    refine ⟨_, rfl, fun p => ?_⟩
    cases hb : dhas (Key.str m) ms with
    | true =>
      obtain ⟨v, hv⟩ := (pyIn_maps hn hms m).1 hb
      simp only [if_true, List.not_mem_nil, false_iff]
      rintro (⟨_, m', e, h⟩ | ⟨_, h, _⟩ | ⟨l, h, _⟩)
      · injection e with e
        subst e
        exact h v hv
      · exact h m rfl
      · simp at h
    | false =>
      have : ∀ v, ¬ At (.dict kvs) [.str "Mappings", .str m] v := by
        intro v hv
        rw [(pyIn_maps hn hms m).2 ⟨v, hv⟩] at hb
        cases hb
      simp only [Bool.false_eq_true, if_false, List.mem_cons, List.not_mem_nil, or_false]
      constructor
      · rintro rfl
        exact .inl ⟨rfl, m, rfl, this⟩
      · rintro (⟨h, _⟩ | ⟨h, _⟩ | ⟨l, h, _⟩)
        · exact h
        · exact h
        · simp at h
  | dict l =>
    refine ⟨_, rfl, fun p => ?_⟩
    constructor
    · intro h; exact .inr (.inr ⟨l, rfl, h⟩)
    · rintro (⟨_, m', e, h⟩ | ⟨_, _, h⟩ | ⟨l', e, h⟩)
      · simp at e
      · exact absurd rfl (h l)
      · injection e with e; subst e; exact h
  | none => exact ⟨_, rfl, fun p => by simp⟩
  | int => exact ⟨_, rfl, fun p => by simp⟩
  | flt => exact ⟨_, rfl, fun p => by simp⟩
  | bool => exact ⟨_, rfl, fun p => by simp⟩
  | list => exact ⟨_, rfl, fun p => by simp⟩

/-- calls of `Fn::FindInMap` that are no list do not stand inside lists -/
def CallsOutsideLists (t : Val) : Prop := ∀ q v, At t (q ++ [.str "Fn::FindInMap"]) v → (∃ xs, v = .list xs) ∨ ∀ k ∈ q, ∃ s, k = .str s

/-- the full statement for E1011: it ends normally and reports exactly the calls of `Fn::FindInMap` that are not well formed -/
def C69_statement : Prop := ∀ t : Val, t.WF → (∃ kvs, t = .dict kvs) → MappingsObject t →
  ∃ res, findInMapRule t (.dict []) = .ok res ∧ ∀ p, p ∈ res ↔ BadFind t p

/-- **C69** Rule E1011 ends normally and reports exactly the calls of `Fn::FindInMap` that are not well formed, if those
that are no list do not stand inside lists. -/
theorem C69_find_partial {t : Val} (hw : t.WF) (ht : ∃ kvs, t = .dict kvs) (hm : MappingsObject t) (ho : CallsOutsideLists t) :
    ∃ res, findInMapRule t (.dict []) = .ok res ∧ ∀ p, p ∈ res ↔ BadFind t p := by
  obtain ⟨kvs, rfl⟩ := ht
  obtain ⟨ms, hms, hn, hmem⟩ := mappingsOf_ok hw hm
  have hthree : ∀ (q : Path) (a b c : Val), ∃ l, findInMapOne (.dict ms) (q ++ [.str "Fn::FindInMap"], .list [a, b, c]) = .ok l ∧
      ∀ p, p ∈ l ↔ ((p = q ++ [.str "Fn::FindInMap"] ++ [.int 0] ∧ ∃ m, a = .str m ∧ ∀ v, ¬ At (.dict kvs) [.str "Mappings", .str m] v) ∨
      (p = q ++ [.str "Fn::FindInMap"] ++ [.int 0] ∧ (∀ s, a ≠ .str s) ∧ ∀ l, a ≠ .dict l) ∨
      ∃ l, a = .dict l ∧ p ∈ findInMapDict l (q ++ [.str "Fn::FindInMap"] ++ [.int 0])) ∨
      p ∈ findInMapKey b 1 (q ++ [.str "Fn::FindInMap"]) ∨ p ∈ findInMapKey c 2 (q ++ [.str "Fn::FindInMap"]) := by
    intro q a b c
    obtain ⟨l, h1, h2⟩ := findInMapName_spec hn hmem a (q ++ [.str "Fn::FindInMap"])
    refine ⟨_, by simp only [findInMapOne]; rw [h1], fun p => ?_⟩
    rw [List.mem_append, List.mem_append, h2, or_assoc]
  have hother : ∀ (q : Path) (xs : List Val), xs.length ≠ 3 →
      findInMapOne (.dict ms) (q ++ [.str "Fn::FindInMap"], .list xs) = .ok [q ++ [.str "Fn::FindInMap"] ++ [.int 1]] := by
    intro q xs hx
    unfold findInMapOne
    match xs, hx with
    | [], _ => rfl
    | [_], _ => rfl
    | [_, _], _ => rfl
    | [_, _, _], hx => simp at hx
    | _ :: _ :: _ :: _ :: _, _ => rfl
  have hnolist : ∀ (q : Path) (v : Val), (∀ xs, v ≠ .list xs) → (∀ k ∈ q, ∃ s, k = .str s) →
      findInMapOne (.dict ms) (q ++ [.str "Fn::FindInMap"], v) = .ok [q ++ [.str "Fn::FindInMap"]] := by
    intro q v hv hq
    have hall : (q ++ [Key.str "Fn::FindInMap"]).all isTextKey = true := by
      rw [List.all_eq_true]
      intro k hk
      rcases List.mem_append.1 hk with hk | hk
      · obtain ⟨s, rfl⟩ := hq k hk; rfl
      · simp only [List.mem_cons, List.not_mem_nil, or_false] at hk; subst hk; rfl
    unfold findInMapOne
    cases v with
    | list xs => exact absurd rfl (hv xs)
    | _ => simp only; rw [if_pos hall]
  have hok : ∀ (q : Path) (v : Val), At (.dict kvs) (q ++ [.str "Fn::FindInMap"]) v →
      ∃ l, findInMapOne (.dict ms) (q ++ [.str "Fn::FindInMap"], v) = .ok l := by
    intro q v hat
    by_cases hv : ∃ xs, v = .list xs
    · obtain ⟨xs, rfl⟩ := hv
      by_cases hx : xs.length = 3
      · match xs, hx with
        | [a, b, c], _ =>
          obtain ⟨l, h, _⟩ := hthree q a b c
          exact ⟨l, h⟩
      · exact ⟨_, hother q xs hx⟩
    · rcases ho q v hat with h | h
      · exact absurd h hv
      · exact ⟨_, hnolist q v (fun xs e => hv ⟨xs, e⟩) h⟩
  obtain ⟨res, hres⟩ : ∃ res, collectM (findInMapOne (.dict ms)) (searchDeepKeys "Fn::FindInMap" (.dict kvs) (.dict [])) = .ok res := by
    apply collectM_ok
    rintro ⟨p, v⟩ hf
    obtain ⟨q, rfl, hat⟩ := (mem_findFIM hw).1 hf
    exact hok q v hat
  refine ⟨res, by unfold findInMapRule; rw [hms]; exact hres, fun p => ?_⟩
  rw [mem_collectM hres]
  constructor
  · rintro ⟨⟨p', v⟩, hf, l, h1, h2⟩
    obtain ⟨q, rfl, hat⟩ := (mem_findFIM hw).1 hf
    by_cases hv : ∃ xs, v = .list xs
    · obtain ⟨xs, rfl⟩ := hv
      by_cases hx : xs.length = 3
      · match xs, hx with
        | [a, b, c], _ =>
          obtain ⟨l', h3, h4⟩ := hthree q a b c
          rw [h1] at h3
          injection h3 with h3
          subst h3
          have hdict : ∀ (i : Nat) (l : List (Key × Val)), [a, b, c][i]? = some (.dict l) →
              p ∈ findInMapDict l (q ++ [.str "Fn::FindInMap"] ++ [.int i]) → BadFind (.dict kvs) p := by
            intro i l hi hp
            rcases mem_findInMapDict.1 hp with ⟨rfl, h5⟩ | ⟨k, w, rfl, rfl, h5⟩
            · have := BadFind.several hat hi h5
              simpa using this
            · have := BadFind.function hat hi h5
              simpa using this
          have hkey : ∀ (i : Nat) (v : Val), [a, b, c][i + 1]? = some v →
              p ∈ findInMapKey v (i + 1 : Nat) (q ++ [.str "Fn::FindInMap"]) → BadFind (.dict kvs) p := by
            intro i v hi hp
            rcases mem_findInMapKey.1 hp with ⟨rfl, h5, h6⟩ | ⟨l, rfl, h5⟩
            · have := BadFind.key hat hi h5 h6
              simpa using this
            · exact hdict (i + 1) l hi h5
          rcases (h4 p).1 h2 with (⟨rfl, m, rfl, h5⟩ | ⟨rfl, h5, h6⟩ | ⟨l, rfl, h5⟩) | h5 | h5
          · have := BadFind.unknown hat h5
            simpa using this
          · have := BadFind.name hat h5 h6
            simpa using this
          · exact hdict 0 l rfl h5
          · exact hkey 0 b rfl h5
          · exact hkey 1 c rfl h5
      · rw [hother q xs hx] at h1
        injection h1 with h1
        subst h1
        simp only [List.mem_cons, List.not_mem_nil, or_false] at h2
        subst h2
        have := BadFind.size hat hx
        simpa using this
    · have hv' : ∀ xs, v ≠ .list xs := fun xs e => hv ⟨xs, e⟩
      rcases ho q v hat with h | h
      · exact absurd h hv
      · rw [hnolist q v hv' h] at h1
        injection h1 with h1
        subst h1
        simp only [List.mem_cons, List.not_mem_nil, or_false] at h2
        subst h2
        exact .form hat hv'
  · intro hb
    have use : ∀ {q : Path} {v : Val} {l : List Path}, At (.dict kvs) (q ++ [.str "Fn::FindInMap"]) v →
        findInMapOne (.dict ms) (q ++ [.str "Fn::FindInMap"], v) = .ok l → p ∈ l →
        ∃ a ∈ searchDeepKeys "Fn::FindInMap" (.dict kvs) (.dict []), ∃ l, findInMapOne (.dict ms) a = .ok l ∧ p ∈ l :=
      fun hat h1 h2 => ⟨_, (mem_findFIM hw).2 ⟨_, rfl, hat⟩, _, h1, h2⟩
    have hdict : ∀ {q : Path} {a b c : Val} {i : Nat} {l : List (Key × Val)}, At (.dict kvs) (q ++ [.str "Fn::FindInMap"]) (.list [a, b, c]) →
        [a, b, c][i]? = some (.dict l) → p ∈ findInMapDict l (q ++ [.str "Fn::FindInMap"] ++ [.int i]) →
        ∃ a ∈ searchDeepKeys "Fn::FindInMap" (.dict kvs) (.dict []), ∃ l, findInMapOne (.dict ms) a = .ok l ∧ p ∈ l := by
      intro q a b c i l hat hi hp
      obtain ⟨l', h3, h4⟩ := hthree q a b c
      refine use hat h3 ((h4 p).2 ?_)
      match i, hi, hp with
      | 0, hi, hp =>
        simp at hi
        exact .inl (.inr (.inr ⟨l, hi, hp⟩))
      | 1, hi, hp =>
        simp at hi
        exact .inr (.inl (mem_findInMapKey.2 (.inr ⟨l, hi, hp⟩)))
      | 2, hi, hp =>
        simp at hi
        exact .inr (.inr (mem_findInMapKey.2 (.inr ⟨l, hi, hp⟩)))
      | n + 3, hi, _ => simp at hi
    cases hb with
    | form hat hv =>
      rcases ho _ _ hat with ⟨xs, h⟩ | h
      · exact absurd h (hv xs)
      · exact use hat (hnolist _ _ hv h) List.mem_cons_self
    | size hat hx => exact use hat (hother _ _ hx) (by simp)
    | unknown hat h =>
      rename_i q m b c
      obtain ⟨l', h3, h4⟩ := hthree q (.str m) b c
      exact use hat h3 ((h4 _).2 (.inl (.inl ⟨by simp, m, rfl, h⟩)))
    | name hat h h' =>
      rename_i q a b c
      obtain ⟨l', h3, h4⟩ := hthree q a b c
      exact use hat h3 ((h4 _).2 (.inl (.inr (.inl ⟨by simp, h, h'⟩))))
    | key hat hi h h' =>
      rename_i q a b c i v
      obtain ⟨l', h3, h4⟩ := hthree q a b c
      refine use hat h3 ((h4 _).2 ?_)
      match i, hi with
      | 0, hi =>
        simp at hi
        exact .inr (.inl (mem_findInMapKey.2 (.inl ⟨by simp, hi ▸ h, hi ▸ h'⟩)))
      | 1, hi =>
        simp at hi
        exact .inr (.inr (mem_findInMapKey.2 (.inl ⟨by simp, hi ▸ h, hi ▸ h'⟩)))
      | n + 2, hi => simp at hi
    | several hat hi h => exact hdict hat hi (mem_findInMapDict.2 (.inl ⟨by simp, h⟩))
    | function hat hi h => exact hdict hat hi (mem_findInMapDict.2 (.inr ⟨_, _, rfl, by simp, h⟩))

/-! ### W1011 -/

/-- every call of `Fn::FindInMap` has a list as its argument -/
def CallsAreLists (t : Val) : Prop := ∀ q v, At t (q ++ [.str "Fn::FindInMap"]) v → ∃ xs, v = .list xs

/-- the full statement for W1011: it ends normally and reports exactly the keys that are missing in the map -/
def C69_keys_statement : Prop := ∀ t : Val, t.WF → (∃ kvs, t = .dict kvs) → MapsOk t → CallsAreLists t →
  ∃ res, findInMapKeysRule t (.dict []) = .ok res ∧ ∀ p, p ∈ res ↔ MissingKey t p

theorem secondMissing_spec {t : Val} (hw : t.WF) (hok : MapsOk t) {m k1 k2 : Key} {u : Val} (hu : At t [.str "Mappings", m, k1] u)
    (path : Path) : ∃ l, secondMissing u k2 path = .ok l ∧
      ∀ p, p ∈ l ↔ p = path ++ [.int 2] ∧ ∀ w, ¬ At t [.str "Mappings", m, k1, k2] w := by
  obtain ⟨f, rfl⟩ := hok.firsts m k1 u hu
  have hn := (at_wf hu hw).1
  unfold secondMissing
  simp only [dictGet]
  refine ⟨_, rfl, fun p => ?_⟩
  cases hl : dlookup k2 f with
  | none =>
    simp only [Option.getD_none, if_true, List.mem_cons, List.not_mem_nil, or_false]
    constructor
    · rintro rfl
      refine ⟨rfl, fun w h => ?_⟩
      obtain ⟨c, h1, h2⟩ := at_split (p := [.str "Mappings", m, k1]) (q := [k2]) h
      rw [← at_det hw hu h1] at h2
      rw [dlookup_of_mem hn (at_dict_one.1 h2)] at hl
      cases hl
    · exact fun h => h.1
  | some w =>
    have hat : At t [.str "Mappings", m, k1, k2] w := at_append hu (.key (dlookup_mem hl) .here)
    have hv := hok.values _ _ _ _ hat
    have hne : w ≠ .none := by rintro rfl; exact hv
    simp only [Option.getD_some, if_neg hne, List.not_mem_nil, false_iff]
    exact fun h => h.2 w hat

/-- **C69** Rule W1011 ends normally and reports exactly the keys that are missing in the map, if no map and no first key is
empty. -/
theorem C69_keys_partial {t : Val} (hw : t.WF) (ht : ∃ kvs, t = .dict kvs) (hok : MapsOk t) (hcl : CallsAreLists t)
    (hfl : MapsFilled t) : ∃ res, findInMapKeysRule t (.dict []) = .ok res ∧ ∀ p, p ∈ res ↔ MissingKey t p := by
  obtain ⟨kvs, rfl⟩ := ht
  obtain ⟨ms, hms, hn, hmem⟩ := mappingsOf_ok hw hok.section_
  have hname : ∀ m, (∃ e, e ≠ [] ∧ dictGet (.dict ms) (.str m) = .ok (.dict e) ∧ At (.dict kvs) [.str "Mappings", .str m] (.dict e)) ∨
      (dictGet (.dict ms) (.str m) = .ok .none ∧ ∀ v, ¬ At (.dict kvs) [.str "Mappings", .str m] v) := by
    intro m
    simp only [dictGet]
    cases hl : dlookup (Key.str m) ms with
    | none =>
      refine .inr ⟨rfl, fun v hv => ?_⟩
      rw [dlookup_of_mem hn ((hmem _ _).2 hv)] at hl
      cases hl
    | some v =>
      have hat := (hmem _ _).1 (dlookup_mem hl)
      obtain ⟨e, rfl⟩ := hok.maps _ _ hat
      refine .inl ⟨e, ?_, rfl, hat⟩
      rintro rfl
      exact hfl.maps _ hat
  have hup : ∀ {m k1 : Key} {v : Val}, At (.dict kvs) [.str "Mappings", m, k1] v → ∃ u, At (.dict kvs) [.str "Mappings", m] u ∧ At u [k1] v :=
    fun h => at_split (p := [.str "Mappings", _]) (q := [_]) h
  have hcall : ∀ (q : Path) (name first second : Val), At (.dict kvs) (q ++ [.str "Fn::FindInMap"]) (.list [name, first, second]) →
      ∃ l, findInMapKeys name first second (.dict ms) (q ++ [.str "Fn::FindInMap"]) = .ok l ∧ ∀ p, p ∈ l ↔
      ∃ m k2, name = .str m ∧ KeyValue second k2 ∧
        ((p = q ++ [.str "Fn::FindInMap"] ++ [.int 1] ∧ ∃ k1, KeyValue first k1 ∧ (∃ v, At (.dict kvs) [.str "Mappings", .str m] v) ∧
            ∀ w, ¬ At (.dict kvs) [.str "Mappings", .str m, k1] w) ∨
         (p = q ++ [.str "Fn::FindInMap"] ++ [.int 2] ∧ ∃ k1, (KeyValue first k1 ∨ ∀ k, ¬ KeyValue first k) ∧
            (∃ v, At (.dict kvs) [.str "Mappings", .str m, k1] v) ∧ ∀ w, ¬ At (.dict kvs) [.str "Mappings", .str m, k1, k2] w)) := by
    intro q name first second hat
    have hnil : ∀ {P : Path → Prop}, (∀ p, ¬ P p) → ∀ p, p ∈ ([] : List Path) ↔ P p := by
      intro P h p
      simp only [List.not_mem_nil, false_iff]
      exact h p
    unfold findInMapKeys
    cases h2 : toKey second with
    | none =>
      refine ⟨[], rfl, hnil ?_⟩
      rintro p ⟨m, k2, _, hk, _⟩
      rw [keyValue_iff.1 hk] at h2
      cases h2
    | some k2 =>
      have hk2 : ∀ k, KeyValue second k → k = k2 := by
        intro k hk
        rw [keyValue_iff.1 hk] at h2
        injection h2
      by_cases hs : ∃ m, name = .str m
      · obtain ⟨m, rfl⟩ := hs
        simp only
        rcases hname m with ⟨e, hne, h3, h4⟩ | ⟨h3, h4⟩
        · rw [h3]
          have htr : (Val.dict e).truthy = true := by
            cases e with
            | nil => exact absurd rfl hne
            | cons x xs => rfl
          simp only [htr, if_true]
          have hne' := (at_wf h4 hw).1
          cases h1 : toKey first with
          | some k1 =>
            have hk1 : ∀ k, KeyValue first k → k = k1 := by
              intro k hk
              rw [keyValue_iff.1 hk] at h1
              injection h1
            simp only [dictGet]
            cases hl : dlookup k1 e with
            | none =>
              have hno : ∀ w, ¬ At (.dict kvs) [.str "Mappings", .str m, k1] w := by
                intro w hw'
                obtain ⟨u, h5, h6⟩ := hup hw'
                rw [← at_det hw h4 h5] at h6
                rw [dlookup_of_mem hne' (at_dict_one.1 h6)] at hl
                cases hl
              refine ⟨[q ++ [.str "Fn::FindInMap"] ++ [.int 1]], rfl, fun p => ?_⟩
              simp only [List.mem_cons, List.not_mem_nil, or_false]
              constructor
              · rintro rfl
                exact ⟨m, k2, rfl, keyValue_iff.2 h2, .inl ⟨rfl, k1, keyValue_iff.2 h1, ⟨_, h4⟩, hno⟩⟩
              · rintro ⟨m', k', e, hk, ⟨h, _⟩ | ⟨h, k, hk', ⟨v, hv⟩, _⟩⟩
                · exact h
                · injection e with e
                  subst e
                  rcases hk' with hk' | hk'
                  · rw [hk1 k hk'] at hv
                    exact absurd hv (hno v)
                  · exact absurd (keyValue_iff.2 h1) (hk' k1)
            | some u =>
              have hu : At (.dict kvs) [.str "Mappings", .str m, k1] u := at_append h4 (.key (dlookup_mem hl) .here)
              obtain ⟨f, rfl⟩ := hok.firsts _ _ _ hu
              have htr' : (Val.dict f).truthy = true := by
                cases f with
                | nil => exact absurd hu (hfl.firsts _ _)
                | cons x xs => rfl
              simp only [Option.getD_some, htr', if_true]
              obtain ⟨l, h5, h6⟩ := secondMissing_spec (k2 := k2) hw hok hu (q ++ [.str "Fn::FindInMap"])
              refine ⟨l, h5, fun p => ?_⟩
              rw [h6]
              constructor
              · rintro ⟨rfl, h7⟩
                exact ⟨m, k2, rfl, keyValue_iff.2 h2, .inr ⟨rfl, k1, .inl (keyValue_iff.2 h1), ⟨_, hu⟩, h7⟩⟩
              · rintro ⟨m', k', e, hk, ⟨_, k, hk', _, h⟩ | ⟨h, k, hk', _, h7⟩⟩
                · injection e with e
                  subst e
                  rw [hk1 k hk'] at h
                  exact absurd hu (h _)
                · injection e with e
                  subst e
                  rcases hk' with hk' | hk'
                  · rw [hk1 k hk', hk2 k' hk] at h7
                    exact ⟨h, h7⟩
                  · exact absurd (keyValue_iff.2 h1) (hk' k1)
          | none =>
            have hk1 : ∀ k, ¬ KeyValue first k := by
              intro k hk
              rw [keyValue_iff.1 hk] at h1
              cases h1
            simp only [itemsOf]
            have hin : ∀ {k u}, (k, u) ∈ e → At (.dict kvs) [.str "Mappings", .str m, k] u :=
              fun h => at_append h4 (.key h .here)
            obtain ⟨l, hl⟩ := collectM_ok (as := e) (f := fun kv => secondMissing kv.2 k2 (q ++ [.str "Fn::FindInMap"])) (by
              rintro ⟨k, u⟩ hku
              obtain ⟨l, h5, _⟩ := secondMissing_spec (k2 := k2) hw hok (hin hku) (q ++ [.str "Fn::FindInMap"])
              exact ⟨l, h5⟩)
            refine ⟨l, hl, fun p => ?_⟩
            rw [mem_collectM hl]
            constructor
            · rintro ⟨⟨k, u⟩, hku, l', h5, h6⟩
              obtain ⟨l'', h7, h8⟩ := secondMissing_spec (k2 := k2) hw hok (hin hku) (q ++ [.str "Fn::FindInMap"])
              rw [h5] at h7
              injection h7 with h7
              subst h7
              obtain ⟨rfl, h9⟩ := (h8 p).1 h6
              exact ⟨m, k2, rfl, keyValue_iff.2 h2, .inr ⟨rfl, k, .inr hk1, ⟨_, hin hku⟩, h9⟩⟩
            · rintro ⟨m', k', e', hk, ⟨_, k, hk', _, h⟩ | ⟨h, k, hk', ⟨u, hu⟩, h7⟩⟩
              · exact absurd hk' (hk1 k)
              · injection e' with e'
                subst e'
                obtain ⟨u', h8, h9⟩ := hup hu
                rw [← at_det hw h4 h8] at h9
                obtain ⟨l'', h10, h11⟩ := secondMissing_spec (k2 := k2) hw hok hu (q ++ [.str "Fn::FindInMap"])
                rw [hk2 k' hk] at h7
                exact ⟨(k, u), at_dict_one.1 h9, l'', h10, (h11 p).2 ⟨h, h7⟩⟩
        · rw [h3]
          refine ⟨[], rfl, hnil ?_⟩
          rintro p ⟨m', k', e, hk, ⟨_, k, hk', ⟨v, hv⟩, h⟩ | ⟨h, k, hk', ⟨v, hv⟩, h7⟩⟩
          · injection e with e
            subst e
            exact h4 v hv
          · injection e with e
            subst e
            obtain ⟨u, h5, _⟩ := hup hv
            exact h4 u h5
      · refine ⟨[], ?_, hnil ?_⟩
        · cases name with
          | str m => exact absurd ⟨m, rfl⟩ hs
          | _ => rfl
        · rintro p ⟨m, k, e, _⟩
          exact hs ⟨m, e⟩
  have hone : ∀ (q : Path) (xs : List Val), xs.length ≠ 3 →
      findInMapKeysOne (.dict ms) (q ++ [.str "Fn::FindInMap"], .list xs) = .ok [] := by
    intro q xs hx
    unfold findInMapKeysOne
    match xs, hx with
    | [], _ => rfl
    | [_], _ => rfl
    | [_, _], _ => rfl
    | [_, _, _], hx => simp at hx
    | _ :: _ :: _ :: _ :: _, _ => rfl
  obtain ⟨res, hres⟩ : ∃ res, collectM (findInMapKeysOne (.dict ms)) (searchDeepKeys "Fn::FindInMap" (.dict kvs) (.dict [])) = .ok res := by
    apply collectM_ok
    rintro ⟨p, v⟩ hf
    obtain ⟨q, rfl, hat⟩ := (mem_findFIM hw).1 hf
    obtain ⟨xs, rfl⟩ := hcl q v hat
    by_cases hx : xs.length = 3
    · match xs, hx with
      | [a, b, c], _ =>
        obtain ⟨l, h, _⟩ := hcall q a b c hat
        exact ⟨l, h⟩
    · exact ⟨_, hone q xs hx⟩
  refine ⟨res, by unfold findInMapKeysRule; rw [hms]; exact hres, fun p => ?_⟩
  rw [mem_collectM hres]
  constructor
  · rintro ⟨⟨p', v⟩, hf, l, h1, h2⟩
    obtain ⟨q, rfl, hat⟩ := (mem_findFIM hw).1 hf
    obtain ⟨xs, rfl⟩ := hcl q v hat
    by_cases hx : xs.length = 3
    · match xs, hx with
      | [a, b, c], _ =>
        obtain ⟨l', h3, h4⟩ := hcall q a b c hat
        have h1' : findInMapKeys a b c (.dict ms) (q ++ [.str "Fn::FindInMap"]) = .ok l := h1
        rw [h1'] at h3
        injection h3 with h3
        subst h3
        obtain ⟨m, k2, rfl, hk2, ⟨rfl, k1, hk1, ⟨v, hv⟩, h5⟩ | ⟨rfl, k1, hk1 | hk1, ⟨v, hv⟩, h5⟩⟩ := (h4 p).1 h2
        · have := MissingKey.first hat hk1 hk2 hv h5
          simpa using this
        · have := MissingKey.second hat hk1 hk2 hv h5
          simpa using this
        · have := MissingKey.any hat hk1 hk2 hv h5
          simpa using this
    · rw [hone q xs hx] at h1
      injection h1 with h1
      subst h1
      cases h2
  · intro hb
    have use : ∀ {q : Path} {a b c : Val}, At (.dict kvs) (q ++ [.str "Fn::FindInMap"]) (.list [a, b, c]) →
        (∀ l, findInMapKeys a b c (.dict ms) (q ++ [.str "Fn::FindInMap"]) = .ok l → p ∈ l) →
        ∃ a ∈ searchDeepKeys "Fn::FindInMap" (.dict kvs) (.dict []), ∃ l, findInMapKeysOne (.dict ms) a = .ok l ∧ p ∈ l := by
      intro q a b c hat h
      obtain ⟨l, h1, _⟩ := hcall q a b c hat
      exact ⟨_, (mem_findFIM hw).2 ⟨_, rfl, hat⟩, l, h1, h l h1⟩
    have key : ∀ {q : Path} {a b c : Val}, At (.dict kvs) (q ++ [.str "Fn::FindInMap"]) (.list [a, b, c]) → ∀ l,
        findInMapKeys a b c (.dict ms) (q ++ [.str "Fn::FindInMap"]) = .ok l → ∀ m k2, a = .str m → KeyValue c k2 →
        ((p = q ++ [.str "Fn::FindInMap"] ++ [.int 1] ∧ ∃ k1, KeyValue b k1 ∧ (∃ v, At (.dict kvs) [.str "Mappings", .str m] v) ∧
            ∀ w, ¬ At (.dict kvs) [.str "Mappings", .str m, k1] w) ∨
         (p = q ++ [.str "Fn::FindInMap"] ++ [.int 2] ∧ ∃ k1, (KeyValue b k1 ∨ ∀ k, ¬ KeyValue b k) ∧
            (∃ v, At (.dict kvs) [.str "Mappings", .str m, k1] v) ∧ ∀ w, ¬ At (.dict kvs) [.str "Mappings", .str m, k1, k2] w)) → p ∈ l := by
      intro q a b c hat l hl m k2 ha hk h
      obtain ⟨l', h1, h2⟩ := hcall q a b c hat
      rw [hl] at h1
      injection h1 with h1
      subst h1
      exact (h2 p).2 ⟨m, k2, ha, hk, h⟩
    cases hb with
    | first hat ha hb hm h => exact use hat (fun l hl => key hat l hl _ _ rfl hb (.inl ⟨by simp, _, ha, ⟨_, hm⟩, h⟩))
    | second hat ha hb hm h => exact use hat (fun l hl => key hat l hl _ _ rfl hb (.inr ⟨by simp, _, .inl ha, ⟨_, hm⟩, h⟩))
    | any hat ha hb hm h => exact use hat (fun l hl => key hat l hl _ _ rfl hb (.inr ⟨by simp, _, .inr ha, ⟨_, hm⟩, h⟩))

/-! ### Accepted lookups succeed -/

/-- the rules on mappings report nothing -/
structure MapSilent (t : Val) : Prop where
  mappings : mappingsRule t = .ok []
  find : findInMapRule t (.dict []) = .ok []
  keys : findInMapKeysRule t (.dict []) = .ok []

/-- The full C70 statement: where the rules E7001, E1011 and W1011 are silent, every call of `Fn::FindInMap` with a written out map
and second key finds a value: below the first key if that is written out, else below every first key of the map. -/
def C70_statement : Prop := ∀ t : Val, t.WF → (∃ kvs, t = .dict kvs) → MappingsObject t → MapSilent t →
  ∀ q m a b k2, At t (q ++ [.str "Fn::FindInMap"]) (.list [.str m, a, b]) → KeyValue b k2 →
    (∀ k1, KeyValue a k1 → ∃ v, At t [.str "Mappings", .str m, k1, k2] v ∧ MapValue v) ∧
    ((∀ k, ¬ KeyValue a k) → ∀ k1 u, At t [.str "Mappings", .str m, k1] u → ∃ v, At t [.str "Mappings", .str m, k1, k2] v ∧ MapValue v)

theorem find_silent {t : Val} (hw : t.WF) (h : findInMapRule t (.dict []) = .ok []) : CallsAreLists t := by
  intro q v hat
  unfold findInMapRule at h
  split at h
  · cases h
  · rename_i m hm
    have hf := (mem_findFIM hw).2 ⟨q, rfl, hat⟩
    obtain ⟨l, hl⟩ := collectM_each h _ hf
    have hnil : l = [] := by
      cases l with
      | nil => rfl
      | cons x xs => exact absurd ((mem_collectM h (b := x)).2 ⟨_, hf, _, hl, List.mem_cons_self⟩) List.not_mem_nil
    subst hnil
    unfold findInMapOne at hl
    cases v with
    | list xs => exact ⟨xs, rfl⟩
    | _ =>
      simp only at hl
      split at hl
      · injection hl with hl
        cases hl
      · cases hl

theorem mapsOk_of {t : Val} (hm : MappingsObject t) (hw : t.WF) (h : ∀ p, ¬ BadMapping t p) : MapsOk t := by
  have h1 : ∀ m v, At t [.str "Mappings", m] v → ∃ kvs, v = .dict kvs := by
    intro m v hv
    by_contra hn
    exact h _ (.map hv (fun kvs e => hn ⟨kvs, e⟩))
  have h2 : ∀ m k v, At t [.str "Mappings", m, k] v → ∃ kvs, v = .dict kvs := by
    intro m k v hv
    obtain ⟨u, h3, _⟩ := at_split (p := [.str "Mappings", m]) (q := [k]) hv
    obtain ⟨l, rfl⟩ := h1 m u h3
    by_contra hn
    exact h _ (.first h3 hv (fun kvs e => hn ⟨kvs, e⟩))
  refine ⟨hm, h1, h2, ?_⟩
  intro m k k' v hv
  obtain ⟨u, h3, _⟩ := at_split (p := [.str "Mappings", m, k]) (q := [k']) hv
  obtain ⟨l, rfl⟩ := h2 m k u h3
  obtain ⟨u', h4, _⟩ := at_split (p := [.str "Mappings", m]) (q := [k]) h3
  obtain ⟨l', rfl⟩ := h1 m u' h4
  by_contra hn
  exact h _ (.value h4 h3 hv hn)

/-- **C70** Where the rules E7001, E1011 and W1011 are silent and no map or first key is empty, every call of `Fn::FindInMap`
with a written out map and second key finds a value. -/
theorem C70_lookup_partial {t : Val} (hw : t.WF) (ht : ∃ kvs, t = .dict kvs) (hm : MappingsObject t) (hs : MapSilent t)
    (hfl : MapsFilled t) {q : Path} {m : String} {a b : Val} {k2 : Key}
    (hat : At t (q ++ [.str "Fn::FindInMap"]) (.list [.str m, a, b])) (hb : KeyValue b k2) :
    (∀ k1, KeyValue a k1 → ∃ v, At t [.str "Mappings", .str m, k1, k2] v ∧ MapValue v) ∧
    ((∀ k, ¬ KeyValue a k) → ∀ k1 u, At t [.str "Mappings", .str m, k1] u → ∃ v, At t [.str "Mappings", .str m, k1, k2] v ∧ MapValue v) := by
  obtain ⟨r1, h1, s1⟩ := C69_mappings hw ht hm
  rw [hs.mappings] at h1
  injection h1 with h1
  have hok := mapsOk_of hm hw ((nil_of_spec s1).1 h1.symm)
  have hcl := find_silent hw hs.find
  obtain ⟨r2, h2, s2⟩ := C69_find_partial hw ht hm (fun q v h => .inl (hcl q v h))
  rw [hs.find] at h2
  injection h2 with h2
  have hbf := (nil_of_spec s2).1 h2.symm
  obtain ⟨r3, h3, s3⟩ := C69_keys_partial hw ht hok hcl hfl
  rw [hs.keys] at h3
  injection h3 with h3
  have hmk := (nil_of_spec s3).1 h3.symm
  have hex : ∃ v, At t [.str "Mappings", .str m] v := by
    by_contra hn
    exact hbf _ (.unknown hat (fun v hv => hn ⟨v, hv⟩))
  obtain ⟨mv, hmv⟩ := hex
  constructor
  · intro k1 ha
    have h4 : ∃ v, At t [.str "Mappings", .str m, k1] v := by
      by_contra hn
      exact hmk _ (.first hat ha hb hmv (fun v hv => hn ⟨v, hv⟩))
    obtain ⟨u, hu⟩ := h4
    have h5 : ∃ v, At t [.str "Mappings", .str m, k1, k2] v := by
      by_contra hn
      exact hmk _ (.second hat ha hb hu (fun v hv => hn ⟨v, hv⟩))
    obtain ⟨v, hv⟩ := h5
    exact ⟨v, hv, hok.values _ _ _ _ hv⟩
  · intro ha k1 u hu
    have h5 : ∃ v, At t [.str "Mappings", .str m, k1, k2] v := by
      by_contra hn
      exact hmk _ (.any hat ha hb hu (fun v hv => hn ⟨v, hv⟩))
    obtain ⟨v, hv⟩ := h5
    exact ⟨v, hv, hok.values _ _ _ _ hv⟩

/-! ### Witnesses -/

/-- a template with mappings and one lookup -/
def exMaps (ms : List (Key × Val)) (call : Val) : Val := .dict [(.str "Mappings", .dict ms),
  (.str "Outputs", .dict [(.str "O", .dict [(.str "Value", .dict [(.str "Fn::FindInMap", call)])])])]

theorem exMaps_obj {ms : List (Key × Val)} {call : Val} : MappingsObject (exMaps ms call) := by
  intro v h
  rw [exMaps, at_dict_one] at h
  simp at h
  exact ⟨ms, h⟩

theorem exMaps_call {ms : List (Key × Val)} {call : Val} :
    At (exMaps ms call) ([.str "Outputs", .str "O", .str "Value"] ++ [.str "Fn::FindInMap"]) call :=
  .key (List.mem_cons_of_mem _ List.mem_cons_self) (.key List.mem_cons_self (.key List.mem_cons_self (.key List.mem_cons_self .here)))

/-- one map with two first keys -/
def exRegions : List (Key × Val) := [(.str "Regions", .dict [
  (.str "eu", .dict [(.str "Ami", .str "ami-1")]), (.str "us", .dict [(.str "Ami", .str "ami-2")])])]

theorem exRegions_wf {call : Val} (hc : call.WF) : (exMaps exRegions call).WF := by
  simp [exMaps, exRegions, Val.WF, Val.WFDict, Val.WFList, hc]

/-- the hypotheses of `C70_lookup_partial` are met, with a written out and with a computed first key -/
example : ∃ v, At (exMaps exRegions (.list [.str "Regions", .str "eu", .str "Ami"])) [.str "Mappings", .str "Regions", .str "eu", .str "Ami"] v ∧ MapValue v := by
  refine (C70_lookup_partial (exRegions_wf (by simp [Val.WF, Val.WFList])) ⟨_, rfl⟩ exMaps_obj ⟨by decide, by decide, by decide⟩ ⟨?_, ?_⟩ exMaps_call .str).1 _ .str
  · intro m h
    have := (follow_at (exRegions_wf (by simp [Val.WF, Val.WFList]))).1 h
    by_cases hm : m = .str "Regions"
    · subst hm; cases this
    · simp [follow, exMaps, exRegions, dlookup, Ne.symm hm] at this
  · intro m k h
    have := (follow_at (exRegions_wf (by simp [Val.WF, Val.WFList]))).1 h
    by_cases hm : m = .str "Regions"
    · subst hm
      by_cases h1 : k = .str "eu"
      · subst h1; cases this
      · by_cases h2 : k = .str "us"
        · subst h2; cases this
        · simp [follow, exMaps, exRegions, dlookup, Ne.symm h1, Ne.symm h2] at this
    · simp [follow, exMaps, exRegions, dlookup, Ne.symm hm] at this

example : findInMapKeysRule (exMaps exRegions (.list [.str "Regions", .dict [(.str "Ref", .str "AWS::Region")], .str "Vpc"])) (.dict []) =
    .ok [[.str "Outputs", .str "O", .str "Value", .str "Fn::FindInMap", .int 2], [.str "Outputs", .str "O", .str "Value", .str "Fn::FindInMap", .int 2]] := by
  decide

example : findInMapRule (exMaps exRegions (.list [.str "Region", .list [], .dict [(.str "Fn::Sub", .str "x")]])) (.dict []) =
    .ok [[.str "Outputs", .str "O", .str "Value", .str "Fn::FindInMap", .int 0], [.str "Outputs", .str "O", .str "Value", .str "Fn::FindInMap", .int 1],
      [.str "Outputs", .str "O", .str "Value", .str "Fn::FindInMap", .int 2, .str "Fn::Sub"]] := by
  decide

/-- A lookup in an empty map is not reported. -/
theorem C70_empty_map_violated : ¬ C70_statement := by
  intro h
  have hw : (exMaps [(.str "M", .dict [])] (.list [.str "M", .str "a", .str "b"])).WF := by
    simp [exMaps, Val.WF, Val.WFDict, Val.WFList]
  obtain ⟨v, hv, _⟩ := (h _ hw ⟨_, rfl⟩ exMaps_obj ⟨by decide, by decide, by decide⟩ _ _ _ _ _ exMaps_call .str).1 _ .str
  have := (follow_at hw).1 hv
  cases this

/-- A lookup below an empty first key is not reported. -/
theorem C70_empty_key_violated : ¬ C70_statement := by
  intro h
  have hw : (exMaps [(.str "M", .dict [(.str "a", .dict [])])] (.list [.str "M", .str "a", .str "b"])).WF := by
    simp [exMaps, Val.WF, Val.WFDict, Val.WFList]
  obtain ⟨v, hv, _⟩ := (h _ hw ⟨_, rfl⟩ exMaps_obj ⟨by decide, by decide, by decide⟩ _ _ _ _ _ exMaps_call .str).1 _ .str
  have := (follow_at hw).1 hv
  cases this

/-- With an empty map W1011 misses the missing key. -/
theorem C69_keys_violated : ¬ C69_keys_statement := by
  intro h
  have hw : (exMaps [(.str "M", .dict [])] (.list [.str "M", .str "a", .str "b"])).WF := by
    simp [exMaps, Val.WF, Val.WFDict, Val.WFList]
  have hb : ∀ p, ¬ BadMapping (exMaps [(.str "M", .dict [])] (.list [.str "M", .str "a", .str "b"])) p := by
    obtain ⟨r, h1, s1⟩ := C69_mappings hw ⟨_, rfl⟩ exMaps_obj
    have : mappingsRule (exMaps [(.str "M", .dict [])] (.list [.str "M", .str "a", .str "b"])) = .ok [] := by decide
    rw [this] at h1
    injection h1 with h1
    exact (nil_of_spec s1).1 h1.symm
  obtain ⟨res, h1, h2⟩ := h _ hw ⟨_, rfl⟩ (mapsOk_of exMaps_obj hw hb) (find_silent hw (by decide))
  have h3 : findInMapKeysRule (exMaps [(.str "M", .dict [])] (.list [.str "M", .str "a", .str "b"])) (.dict []) = .ok [] := by decide
  rw [h3] at h1
  injection h1 with h1
  subst h1
  refine List.not_mem_nil ((h2 _).2 (.first exMaps_call .str .str ((follow_at hw).2 (by rfl)) ?_))
  intro w hw'
  have := (follow_at hw).1 hw'
  cases this

/-- A call without list inside a list makes E1011 raise. -/
theorem C69_violated : ¬ C69_statement := by
  intro h
  have hw : (Val.dict [(.str "Outputs", .list [.dict [(.str "Fn::FindInMap", .str "M")]])]).WF := by simp [Val.WF, Val.WFDict, Val.WFList]
  obtain ⟨res, h1, _⟩ := h _ hw ⟨_, rfl⟩ (by
    intro v hv
    rw [at_dict_one] at hv
    simp at hv)
  have h2 : findInMapRule (.dict [(.str "Outputs", .list [.dict [(.str "Fn::FindInMap", .str "M")]])]) (.dict []) =
    .error (.typeError "sequence item: expected str instance, int found") := by decide
  rw [h2] at h1
  cases h1

/-- Numbers and objects of three entries instead of the list make W1011 raise; a text of three letters is taken apart. -/
theorem C69_keys_raises : (∃ e, findInMapKeysRule (exMaps exRegions (.int 5)) (.dict []) = .error e) ∧
    (∃ e, findInMapKeysRule (exMaps exRegions (.dict [(.str "a", .int 1), (.str "b", .int 2), (.str "c", .int 3)])) (.dict []) = .error e) ∧
    findInMapKeysRule (exMaps [(.str "M", .dict [(.str "x", .dict [(.str "y", .int 1)])])] (.str "Mab")) (.dict []) =
      .ok [[.str "Outputs", .str "O", .str "Value", .str "Fn::FindInMap", .int 1]] := by
  refine ⟨⟨.typeError "object has no len()", by decide⟩, ⟨.keyError "0", by decide⟩, by decide⟩

end CfnLint
