import Verif.Model.Override
import Verif.Props.Specs
import Mathlib.Data.List.Nodup
/-
C124. The file of overrides: it is applied to every region in the same way, every template of a run is checked with the same specifications, and a file that cannot be
read should end the run.
-/
namespace CfnLint
open Spec

namespace Spec

/-- the patterns an override file lists under a key: none without the key -/
def Patterns (o : List (Key × Val)) (k : String) (l : List String) : Prop :=
  (Key.str k, Val.list (l.map Val.str)) ∈ o ∨ ((∀ v, (Key.str k, v) ∉ o) ∧ l = [])

/-- what an override file says about the specifications: everything except its two lists of patterns -/
def OverrideEntry (o : List (Key × Val)) (kv : Key × Val) : Prop :=
  kv ∈ o ∧ kv.1 ≠ .str "IncludeResourceTypes" ∧ kv.1 ≠ .str "ExcludeResourceTypes"

/-- following keys in the override file leads to a value -/
def Overrides (o : List (Key × Val)) (p : List Key) (w : Val) : Prop :=
  ∃ k x q, p = k :: q ∧ OverrideEntry o (k, x) ∧ Holds x q w

end Spec

theorem textItems_strs : ∀ l : List String, textItems (l.map Val.str) = .ok l
  | [] => rfl
  | s :: l => by simp only [List.map_cons, textItems, textItems_strs l]

theorem patternsOf_spec {o : List (Key × Val)} {k : String} {l : List String} (hn : (o.map Prod.fst).Nodup) (h : Patterns o k l) :
    patternsOf ((dlookup (Key.str k) o).getD .none) = .ok l := by
  rcases h with h | ⟨h, rfl⟩
  · rw [dlookup_of_mem hn h]
    simp only [Option.getD_some, patternsOf]
    cases l with
    | nil => simp [Val.truthy]
    | cons s l =>
      have ht : (Val.list (List.map Val.str (s :: l))).truthy = true := by simp [Val.truthy]
      rw [if_pos ht, textItems_strs]
  · have : dlookup (Key.str k) o = none := by
      rw [dlookup_none_iff]
      intro hm
      obtain ⟨⟨a, b⟩, hab, e⟩ := List.mem_map.1 hm
      cases e; exact h b hab
    rw [this]
    simp [patternsOf, Val.truthy]

theorem ddel_mem {k : Key} : ∀ {o : List (Key × Val)}, (o.map Prod.fst).Nodup → ∀ kv, kv ∈ ddel k o ↔ kv ∈ o ∧ kv.1 ≠ k
  | [], _, kv => by simp [ddel]
  | (a, b) :: o, hn, kv => by
    simp only [List.map_cons, List.nodup_cons] at hn
    unfold ddel
    by_cases h : a = k
    · subst h
      rw [if_pos rfl]
      constructor
      · intro hm
        exact ⟨List.mem_cons_of_mem _ hm, fun e => hn.1 (e ▸ List.mem_map_of_mem hm)⟩
      · rintro ⟨hm, hne⟩
        rcases List.mem_cons.1 hm with e | hm
        · subst e; exact absurd rfl hne
        · exact hm
    · rw [if_neg h, List.mem_cons, ddel_mem hn.2 kv, List.mem_cons]
      constructor
      · rintro (e | ⟨h1, h2⟩)
        · subst e; exact ⟨.inl rfl, h⟩
        · exact ⟨.inr h1, h2⟩
      · rintro ⟨e | h1, h2⟩
        · exact .inl e
        · exact .inr ⟨h1, h2⟩

theorem ddel_nodup {k : Key} : ∀ {o : List (Key × Val)}, (o.map Prod.fst).Nodup → ((ddel k o).map Prod.fst).Nodup
  | [], _ => by simp [ddel]
  | (a, b) :: o, hn => by
    simp only [List.map_cons, List.nodup_cons] at hn
    unfold ddel
    split
    · exact hn.2
    · simp only [List.map_cons, List.nodup_cons]
      refine ⟨fun hm => ?_, ddel_nodup hn.2⟩
      obtain ⟨kv, hkv, e⟩ := List.mem_map.1 hm
      exact hn.1 (e ▸ List.mem_map_of_mem ((ddel_mem hn.2 kv).1 hkv).1)

theorem ddel_wf {k : Key} {o : List (Key × Val)} (h : (Val.dict o).WF) : (Val.dict (ddel k o)).WF := by
  have main : ∀ {o : List (Key × Val)}, Val.WFDict o → Val.WFDict (ddel k o) := by
    intro o
    induction o with
    | nil => intro h; exact h
    | cons kv o ih =>
      obtain ⟨a, b⟩ := kv
      intro h
      simp only [Val.WFDict] at h
      unfold ddel
      split
      · exact h.2
      · simp only [Val.WFDict]
        exact ⟨h.1, ih h.2⟩
  rw [Val.WF] at h ⊢
  exact ⟨ddel_nodup h.1, main h.2⟩

theorem setRegions_spec {one : List (Key × Val) → PyM (List (Key × Val))} : ∀ {specs r : List (String × List (Key × Val))},
    setRegions one specs = .ok r ↔ List.Forall₂ (fun a b => b.1 = a.1 ∧ one a.2 = .ok b.2) specs r
  | [], r => by
    simp only [setRegions, Except.ok.injEq, List.forall₂_nil_left_iff]
    exact eq_comm
  | (n, spec) :: specs, r => by
    have ih := @setRegions_spec one specs
    rw [List.forall₂_cons_left_iff]
    simp only [setRegions]
    constructor
    · intro h
      split at h
      · cases h
      · rename_i spec' hspec
        split at h
        · cases h
        · rename_i rest hrest
          cases h
          exact ⟨(n, spec'), rest, ⟨rfl, hspec⟩, ih.1 hrest, rfl⟩
    · rintro ⟨b, rest, ⟨h1, h2⟩, h3, rfl⟩
      obtain ⟨b1, b2⟩ := b
      cases h1
      dsimp only at h2
      rw [h2, ih.2 h3]

theorem setRegions_error {one : List (Key × Val) → PyM (List (Key × Val))} : ∀ {specs : List (String × List (Key × Val))} {e},
    setRegions one specs = .error e → ∃ rs ∈ specs, one rs.2 = .error e
  | [], e, h => by cases h
  | (n, spec) :: specs, e, h => by
    simp only [setRegions] at h
    split at h
    · rename_i e' he
      cases h
      exact ⟨_, List.mem_cons_self, he⟩
    · split at h
      · rename_i e' he
        cases h
        obtain ⟨rs, hm, h⟩ := setRegions_error he
        exact ⟨rs, List.mem_cons_of_mem _ hm, h⟩
      · cases h

/-- what of an override file is merged -/
def entriesOf (o : List (Key × Val)) : List (Key × Val) := ddel (Key.str "IncludeResourceTypes") (ddel (Key.str "ExcludeResourceTypes") o)

theorem entriesOf_mem {o : List (Key × Val)} (hn : (o.map Prod.fst).Nodup) (kv : Key × Val) : kv ∈ entriesOf o ↔ OverrideEntry o kv := by
  unfold entriesOf OverrideEntry
  rw [ddel_mem (ddel_nodup hn), ddel_mem hn]
  tauto

theorem entriesOf_holds {o : List (Key × Val)} (hn : (o.map Prod.fst).Nodup) {p : List Key} {w : Val} (hw : IsLeaf w) :
    Holds (.dict (entriesOf o)) p w ↔ Overrides o p w := by
  constructor
  · intro h
    generalize hg : Val.dict (entriesOf o) = v at h
    cases h with
    | here => exact absurd hg.symm (hw _)
    | into hm hx =>
      cases hg
      exact ⟨_, _, _, rfl, (entriesOf_mem hn _).1 hm, hx⟩
  · rintro ⟨k, x, q, rfl, hm, hx⟩
    exact .into ((entriesOf_mem hn _).2 hm) hx

theorem setAll_dict {rx : String → Option (String → Bool)} {o : List (Key × Val)} {specs : List (String × List (Key × Val))}
    {includes excludes : List String} (hn : (o.map Prod.fst).Nodup) (he : Patterns o "ExcludeResourceTypes" excludes) (hi : Patterns o "IncludeResourceTypes" includes) :
    setAll rx (.dict o) specs = setRegions (setSpecs rx includes excludes (entriesOf o)) specs := by
  simp only [setAll, patternsOf_spec hn he, patternsOf_spec hn hi, entriesOf]

theorem overrideSpecs_ok {rx : String → Option (String → Bool)} {v : Val} {specs r : List (String × List (Key × Val))} :
    overrideSpecs rx (.json v) specs = .ok r ↔ setAll rx v specs = .ok r := by
  simp only [overrideSpecs]
  split <;> simp_all

/-- **C124.** An override file that is an object is applied to every region alike: the regions stay what they were, and in each of them following keys leads to a value
exactly if it does so in the file (apart from its two lists of patterns), or did before and the file says nothing about the place; of the resource types those are left
that the lists of patterns keep. -/
theorem C124_regions {rx : String → Option (String → Bool)} {o : List (Key × Val)} {specs r : List (String × List (Key × Val))} {includes excludes : List String}
    (ho : (Val.dict o).WF) (hs : ∀ rs ∈ specs, (Val.dict rs.2).WF)
    (he : Patterns o "ExcludeResourceTypes" excludes) (hi : Patterns o "IncludeResourceTypes" includes)
    (h : overrideSpecs rx (.json (.dict o)) specs = .ok r) :
    r.map Prod.fst = specs.map Prod.fst ∧
    ∀ (n : Nat) (a b : String × List (Key × Val)), specs[n]? = some a → r[n]? = some b → ∀ (p : List Key) (w : Val), IsLeaf w →
      (Holds (.dict b.2) p w ↔
        (Overrides o p w ∨ (Holds (.dict a.2) p w ∧ ¬ ∃ q w', q <+: p ∧ Overrides o q w' ∧ IsLeaf w')) ∧
        (∀ x q, p = .str "ResourceTypes" :: x :: q → ∃ s, x = .str s ∧ KeepsType rx includes excludes s)) := by
  have hn : (o.map Prod.fst).Nodup := by rw [Val.WF] at ho; exact ho.1
  rw [overrideSpecs_ok, setAll_dict hn he hi, setRegions_spec] at h
  constructor
  · clear hs
    induction h with
    | nil => rfl
    | cons hab _ ih => simp only [List.map_cons, hab.1, ih]
  · intro n a b ha hb p w hw
    have hab : b.1 = a.1 ∧ setSpecs rx includes excludes (entriesOf o) a.2 = .ok b.2 := by
      rw [List.forall₂_iff_get] at h
      obtain ⟨hl, h⟩ := h
      obtain ⟨h1, e1⟩ := List.getElem?_eq_some_iff.1 ha
      obtain ⟨h2, e2⟩ := List.getElem?_eq_some_iff.1 hb
      have := h n h1 h2
      simp only [List.get_eq_getElem, e1, e2] at this
      exact this
    rw [C38_set_leaves (ddel_wf (ddel_wf ho)) (hs a (List.mem_of_getElem? ha)) hab.2 p w hw]
    have hO := @entriesOf_holds o hn
    unfold entriesOf at hO
    rw [hO hw]
    have hM : Mentioned (.dict (ddel (Key.str "IncludeResourceTypes") (ddel (Key.str "ExcludeResourceTypes") o))) p ↔
        ∃ q w', q <+: p ∧ Overrides o q w' ∧ IsLeaf w' := by
      unfold Mentioned
      constructor
      · rintro ⟨q, w', h1, h2, h3⟩; exact ⟨q, w', h1, (hO h3).1 h2, h3⟩
      · rintro ⟨q, w', h1, h2, h3⟩; exact ⟨q, w', h1, (hO h3).2 h2, h3⟩
    rw [hM]

/-- **C124** (conflicts). An override with an object where the specification of some region has something else is never applied: the run fails with an exception. -/
theorem C124_conflict_raises {rx : String → Option (String → Bool)} {o : List (Key × Val)} {specs : List (String × List (Key × Val))} {includes excludes : List String}
    (ho : (Val.dict o).WF) (he : Patterns o "ExcludeResourceTypes" excludes) (hi : Patterns o "IncludeResourceTypes" includes)
    {a : String × List (Key × Val)} (ha : a ∈ specs) (hs : (Val.dict a.2).WF)
    {k : Key} {x : Val} (hk : OverrideEntry o (k, x)) {y : Val} (hy : (k, y) ∈ a.2) (hc : Conflict x y) :
    ∃ e, overrideSpecs rx (.json (.dict o)) specs = .error e := by
  have hn : (o.map Prod.fst).Nodup := by rw [Val.WF] at ho; exact ho.1
  cases hr : overrideSpecs rx (.json (.dict o)) specs with
  | error e => exact ⟨e, rfl⟩
  | ok r =>
    exfalso
    rw [overrideSpecs_ok, setAll_dict hn he hi, setRegions_spec] at hr
    obtain ⟨n, hlt, rfl⟩ := List.mem_iff_getElem.1 ha
    rw [List.forall₂_iff_get] at hr
    obtain ⟨hl, hr⟩ := hr
    have := (hr n hlt (hl ▸ hlt)).2
    simp only [List.get_eq_getElem] at this
    obtain ⟨merged, types, hm, -⟩ := setSpecs_spec this
    have hc' : Conflict (.dict (entriesOf o)) (.dict specs[n].2) := by
      obtain ⟨p, kv, rest, w, h1, h2, h3⟩ := hc
      exact ⟨k :: p, kv, rest, w, .into ((entriesOf_mem hn _).2 hk) h1, .into hy h2, h3⟩
    obtain ⟨e, he'⟩ := (C38_merge_fails_iff (ddel_wf (ddel_wf ho)) hs).2 hc'
    unfold entriesOf at hm
    rw [he'] at hm
    cases hm

theorem setRegions_again {one : List (Key × Val) → PyM (List (Key × Val))} (hone : ∀ a b, one a = .ok b → one b = .ok b)
    {specs r : List (String × List (Key × Val))} (h : setRegions one specs = .ok r) : setRegions one r = .ok r := by
  rw [setRegions_spec] at h ⊢
  induction h with
  | nil => exact .nil
  | cons hab _ ih => exact .cons ⟨rfl, hone _ _ hab.2⟩ ih

theorem setAll_again {rx : String → Option (String → Bool)} {v : Val} (hv : v.WF) {specs r : List (String × List (Key × Val))}
    (h : setAll rx v specs = .ok r) : setAll rx v r = .ok r := by
  have empty : (Val.dict []).WF := by simp [Val.WF, Val.WFDict]
  unfold setAll at h ⊢
  split at h
  · split at h
    · cases h
    · split at h
      · cases h
      · exact setRegions_again (fun a b => C38_set_idempotent (ddel_wf (ddel_wf hv))) h
  · exact setRegions_again (fun a b => C38_set_idempotent empty) h
  · exact setRegions_again (fun a b => C38_set_idempotent empty) h
  · cases h
  · cases h
  · cases h

/-- **C124** (again). Applying the same file a second time succeeds and changes nothing. -/
theorem C124_again {rx : String → Option (String → Bool)} {f : OverrideFile} (hf : ∀ v, f = .json v → v.WF) {specs r : List (String × List (Key × Val))}
    (h : overrideSpecs rx f specs = .ok r) : overrideSpecs rx f r = .ok r := by
  cases f with
  | io n =>
    simp only [overrideSpecs] at h ⊢
    split at h
    · cases h
    · rename_i hn; rw [if_neg hn]
  | malformed => cases h
  | json v =>
    rw [overrideSpecs_ok] at h ⊢
    exact setAll_again (hf v rfl) h

/-- **C124** (templates). Every template of a run is checked with the same specifications, namely those the file gives when it is applied once: reading the file again
for the next template changes nothing. Only the first template can fail. -/
theorem C124_templates {rx : String → Option (String → Bool)} {f : OverrideFile} (hf : ∀ v, f = .json v → v.WF) {specs : List (String × List (Key × Val))} (n : Nat) :
    (∀ r, overrideSpecs rx f specs = .ok r → specsUsed rx (List.replicate n f) specs = .ok (List.replicate n r)) ∧
    (∀ e, overrideSpecs rx f specs = .error e → specsUsed rx (List.replicate (n + 1) f) specs = .error e) := by
  constructor
  · induction n generalizing specs with
    | zero => intro r _; rfl
    | succ n ih =>
      intro r hr
      simp only [List.replicate_succ, specsUsed, hr, ih r (C124_again hf hr)]
  · intro e he
    simp only [List.replicate_succ, specsUsed, he]

/-- The full statement of the last part of C124: an override file that cannot be read, or does not hold JSON, ends the run with status 1. -/
def C124_ends_statement : Prop :=
  ∀ (rx : String → Option (String → Bool)) (specs : List (String × List (Key × Val))),
    overrideSpecs rx .malformed specs = .error (.exit 1) ∧ ∀ n, overrideSpecs rx (.io n) specs = .error (.exit 1)

/-- **C124** fails: with an error of the device (number 5) the run goes on as if no override had been asked for. -/
theorem C124_ends_violated : ¬ C124_ends_statement := by
  intro h
  have := (h (fun _ => none) []).2 5
  simp [overrideSpecs] at this

/-- **C124** (part). A file that is missing (2), a directory (21), forbidden (13) or malformed ends the run with status 1, and nothing else about reading does; after any
other error of reading the specifications are those of before. -/
theorem C124_ends_partial (rx : String → Option (String → Bool)) (specs : List (String × List (Key × Val))) :
    overrideSpecs rx .malformed specs = .error (.exit 1) ∧
    ∀ n, (overrideSpecs rx (.io n) specs = .error (.exit 1) ↔ n ∈ [2, 13, 21]) ∧ (n ∉ [2, 13, 21] → overrideSpecs rx (.io n) specs = .ok specs) := by
  refine ⟨rfl, fun n => ?_⟩
  simp only [overrideSpecs, List.mem_cons, List.not_mem_nil, or_false]
  split
  · rename_i h
    exact ⟨⟨fun _ => by omega, fun _ => rfl⟩, fun h' => absurd (by omega) h'⟩
  · rename_i h
    exact ⟨⟨fun h' => (nomatch h'), fun h' => absurd (by omega) h⟩, fun _ => rfl⟩

theorem setSpecs_notValueError {rx : String → Option (String → Bool)} {includes excludes : List String} {o spec : List (Key × Val)} {m : String} :
    setSpecs rx includes excludes o spec ≠ .error (.valueError m) := by
  have hmerge : ∀ v : Val, (∀ old m, mergeSpecVal v old ≠ .error (.valueError m)) ∧ (∀ kvs, v = .dict kvs → ∀ d m, mergeSpec kvs d ≠ .error (.valueError m)) := by
    intro v
    refine Val.ind (P := fun v => (∀ old m, mergeSpecVal v old ≠ .error (.valueError m)) ∧ (∀ kvs, v = .dict kvs → ∀ d m, mergeSpec kvs d ≠ .error (.valueError m)))
      ?_ ?_ ?_ ?_ ?_ ?_ ?_ v
    · exact ⟨fun old m => by simp [mergeSpecVal], fun _ h => by cases h⟩
    · intro _; exact ⟨fun old m => by simp [mergeSpecVal], fun _ h => by cases h⟩
    · intro _; exact ⟨fun old m => by simp [mergeSpecVal], fun _ h => by cases h⟩
    · intro _; exact ⟨fun old m => by simp [mergeSpecVal], fun _ h => by cases h⟩
    · intro _; exact ⟨fun old m => by simp [mergeSpecVal], fun _ h => by cases h⟩
    · intro _ _; exact ⟨fun old m => by simp [mergeSpecVal], fun _ h => by cases h⟩
    · intro kvs ih
      have hd : ∀ d m, mergeSpec kvs d ≠ .error (.valueError m) := by
        induction kvs with
        | nil => intro d m; simp [mergeSpec]
        | cons kv kvs ihk =>
          obtain ⟨k, v⟩ := kv
          intro d m h
          rw [mergeSpec] at h
          split at h
          · rename_i e he
            cases h
            exact (ih (k, v) List.mem_cons_self).1 _ _ he
          · exact ihk (fun kv hkv => ih kv (List.mem_cons_of_mem _ hkv)) _ _ h
      refine ⟨fun old m h => ?_, fun kvs' e => by cases e; exact hd⟩
      rcases old with _ | old
      · rw [mergeSpecVal] at h
        split at h
        · rename_i e he; cases h; exact hd _ _ he
        · cases h
      · cases old <;> cases kvs <;> rw [mergeSpecVal] at h <;> first
          | (split at h
             · rename_i e he; cases h; exact hd _ _ he
             · cases h)
          | cases h
  have hinc : ∀ (all l : List String), includeTypes rx all l ≠ .error (.valueError m) := by
    intro all l
    induction l with
    | nil => simp [includeTypes]
    | cons p l ih =>
      simp only [includeTypes]
      split
      · simp
      · split
        · rename_i e he; intro h; cases h; exact ih he
        · simp
  have hexc : ∀ (l res : List String), excludeTypes rx l res ≠ .error (.valueError m) := by
    intro l
    induction l with
    | nil => simp [excludeTypes]
    | cons p l ih =>
      intro res
      simp only [excludeTypes]
      split
      · simp
      · exact ih _
  intro h
  unfold setSpecs at h
  split at h
  · rename_i e he
    cases h
    split at he
    · cases he
    · exact (hmerge (.dict o)).2 o rfl _ _ he
  · split at h
    · cases h
    · split at h
      · rename_i e he
        cases h
        unfold keptTypes at he
        split at he
        · rename_i e' he'
          cases he
          split at he'
          · cases he'
          · exact hinc _ _ he'
        · exact hexc _ _ he
      · cases h
    · cases h

theorem textItems_error : ∀ {l : List Val} {e}, textItems l = .error e → e = .attributeError "replace"
  | [], e, h => by cases h
  | v :: xs, e, h => by
    cases v
    case str s =>
      simp only [textItems] at h
      split at h
      · rename_i e' he; cases h; exact textItems_error he
      · cases h
    all_goals cases h; rfl

theorem patternsOf_error {v : Val} {m : String} : patternsOf v ≠ .error (.valueError m) := by
  intro h
  unfold patternsOf at h
  split at h
  · split at h
    · cases textItems_error h
    · cases textItems_error h
    · cases h
    · cases h
  · cases h

theorem setAll_notValueError {rx : String → Option (String → Bool)} {v : Val} {specs : List (String × List (Key × Val))} {m : String} :
    setAll rx v specs ≠ .error (.valueError m) := by
  intro h
  unfold setAll at h
  split at h
  · split at h
    · rename_i e he; cases h; exact patternsOf_error he
    · split at h
      · rename_i e he; cases h; exact patternsOf_error he
      · obtain ⟨_, _, h⟩ := setRegions_error h; exact setSpecs_notValueError h
  · obtain ⟨_, _, h⟩ := setRegions_error h; exact setSpecs_notValueError h
  · obtain ⟨_, _, h⟩ := setRegions_error h; exact setSpecs_notValueError h
  · cases h
  · cases h
  · cases h

/-- **C124** (JSON). A file that holds JSON is never reported as malformed, whatever the JSON is: it is applied, or an exception leaves the program. -/
theorem C124_json_no_exit {rx : String → Option (String → Bool)} {v : Val} {specs : List (String × List (Key × Val))} (c : Nat) :
    overrideSpecs rx (.json v) specs ≠ .error (.exit c) := by
  simp only [overrideSpecs]
  split
  · simp
  · rename_i m h; exact absurd h setAll_notValueError
  · simp

/-- **C124** (shape). JSON that is neither an object nor an empty list or text is never applied: an exception leaves the program. An empty list or text does what an
empty object does. -/
theorem C124_shape (rx : String → Option (String → Bool)) (v : Val) (specs : List (String × List (Key × Val))) :
    ((∀ o, v ≠ .dict o) → v ≠ .list [] → v ≠ .str "" → ∃ e, overrideSpecs rx (.json v) specs = .error (.py e)) ∧
    (v = .list [] ∨ v = .str "" → overrideSpecs rx (.json v) specs = overrideSpecs rx (.json (.dict [])) specs) := by
  constructor
  · intro h1 h2 h3
    cases v with
    | dict o => exact absurd rfl (h1 o)
    | list l => cases l with
      | nil => exact absurd rfl h2
      | cons _ _ => exact ⟨_, rfl⟩
    | str s =>
      refine ⟨.attributeError "items", ?_⟩
      have hs : setAll rx (.str s) specs = .error (.attributeError "items") := by
        unfold setAll
        split
        · rename_i e; cases e
        · rename_i e; cases e
        · rename_i e; exact absurd e h3
        · rename_i e; cases e
        · rfl
        · rename_i e; exact absurd rfl (e s)
      simp only [overrideSpecs, hs]
    | none => exact ⟨_, rfl⟩
    | bool _ => exact ⟨_, rfl⟩
    | int _ => exact ⟨_, rfl⟩
    | flt _ => exact ⟨_, rfl⟩
  · rintro (rfl | rfl)
    · simp [overrideSpecs, setAll, patternsOf, dlookup, Val.truthy, ddel]
    · simp [overrideSpecs, setAll, patternsOf, dlookup, Val.truthy, ddel]

/-- **C124** (formats). Without a format the plain one is used, each of the five formats of the command line has a formatter of its own, and nothing else has one. -/
theorem C124_formats :
    getFormatter .none = some .plain ∧
    (∀ a b : String, a ∈ ["quiet", "parseable", "json", "junit", "pretty"] → b ∈ ["quiet", "parseable", "json", "junit", "pretty"] →
      getFormatter (.str a) ≠ none ∧ getFormatter (.str a) ≠ some .plain ∧ (getFormatter (.str a) = getFormatter (.str b) → a = b)) ∧
    (∀ s : String, s ≠ "" → s ∉ ["quiet", "parseable", "json", "junit", "pretty"] → getFormatter (.str s) = none) := by
  refine ⟨by simp [getFormatter, Val.truthy], ?_, ?_⟩
  · intro a b ha hb
    simp only [List.mem_cons, List.not_mem_nil, or_false] at ha hb
    rcases ha with rfl | rfl | rfl | rfl | rfl <;> rcases hb with rfl | rfl | rfl | rfl | rfl <;> simp [getFormatter, Val.truthy]
  · intro s h0 hs
    simp only [List.mem_cons, List.not_mem_nil, or_false, not_or] at hs
    simp [getFormatter, hs, Val.truthy, h0]

/-- a file that drops all types but one and renames nothing -/
def sampleOverride : List (Key × Val) :=
  [(.str "IncludeResourceTypes", .list [.str "AWS::S3::Bucket"]), (.str "PropertyTypes", .dict [(.str "X", .str "y")])]

def sampleRegions : List (String × List (Key × Val)) :=
  [("us-east-1", [(.str "ResourceTypes", .dict [(.str "AWS::S3::Bucket", .dict []), (.str "AWS::SQS::Queue", .dict [])])]),
   ("eu-west-1", [(.str "ResourceTypes", .dict [(.str "AWS::SQS::Queue", .dict [])])])]

def sampleOverrideRx (r : String) : Option (String → Bool) := some (fun s => s ++ "$" == r)

/-- the hypotheses of `C124_regions`, `C124_again` and `C124_templates` can be met -/
example : (Val.dict sampleOverride).WF ∧ (∀ rs ∈ sampleRegions, (Val.dict rs.2).WF) ∧
    Patterns sampleOverride "ExcludeResourceTypes" [] ∧ Patterns sampleOverride "IncludeResourceTypes" ["AWS::S3::Bucket"] ∧
    overrideSpecs sampleOverrideRx (.json (.dict sampleOverride)) sampleRegions = .ok
      [("us-east-1", [(.str "ResourceTypes", .dict [(.str "AWS::S3::Bucket", .dict [])]), (.str "PropertyTypes", .dict [(.str "X", .str "y")])]),
       ("eu-west-1", [(.str "ResourceTypes", .dict []), (.str "PropertyTypes", .dict [(.str "X", .str "y")])])] := by
  refine ⟨by simp [sampleOverride, Val.WF, Val.WFDict, Val.WFList], by simp [sampleRegions, Val.WF, Val.WFDict], .inr ⟨by simp [sampleOverride], rfl⟩,
    .inl (by simp [sampleOverride]), ?_⟩
  rfl

/-- the hypotheses of `C124_conflict_raises` can be met -/
example : OverrideEntry [(.str "ResourceTypes", .dict [(.str "T", .dict [(.str "a", .int 1)])])] (.str "ResourceTypes", .dict [(.str "T", .dict [(.str "a", .int 1)])]) ∧
    Conflict (.dict [(.str "T", .dict [(.str "a", .int 1)])]) (.dict [(.str "T", .int 3)]) := by
  refine ⟨by simp [OverrideEntry], [.str "T"], (.str "a", .int 1), [], .int 3, .into (by simp) (.here _), .into (by simp) (.here _), ?_⟩
  intro d h; cases h

/-- the hypotheses of `C124_shape` can be met -/
example : (∀ o, Val.int 1 ≠ .dict o) ∧ Val.int 1 ≠ .list [] ∧ Val.int 1 ≠ .str "" := by simp

end CfnLint
