import Verif.Model.SpecUses
import Verif.Props.SpecViews
import Verif.Props.TypesClosed
import Verif.Props.ParamUses
import Verif.Props.SecureRefs
import Verif.Props.RefAtt
import Verif.Props.JsonSize
/-
Property C138: what status 0 says of what the properties of resources use (parameters, other resources, references to secrets, documents), when the rules of the
specification on that are in force.
-/
namespace CfnLint

open Spec

namespace Spec

/-- a value that a parameter of a single text can have -/
def CanBe (o : List (Key × Val)) (x : Val) : Prop :=
  ∃ ty, (Key.str "Type", Val.str ty) ∈ o ∧ SingleParam ty ∧
    ((∃ xs, (Key.str "AllowedValues", Val.list xs) ∈ o ∧ x ∈ xs) ∨ ((Key.str "Default", x) ∈ o ∧ x.truthy = true))

/-- the value refers to the parameter `n`, or is a list with an item that does -/
def UsesName (v : Val) (n : String) : Prop :=
  v = .dict [(.str "Ref", .str n)] ∨ ∃ xs, v = .list xs ∧ Val.dict [(.str "Ref", .str n)] ∈ xs

/-- the texts in a value of a property: the value, the entries of a map, the text of an `Fn::Sub` -/
inductive TextIn (map : Prop) : Val → String → Prop
  | value {s} : ¬ map → TextIn map (.str s) s
  | entry {kvs k s} : map → Known (.dict kvs) → (k, Val.str s) ∈ kvs → TextIn map (.dict kvs) s
  | sub {s} : TextIn map (.dict [(.str "Fn::Sub", .str s)]) s
  | subList {s xs} : TextIn map (.dict [(.str "Fn::Sub", .list (.str s :: xs))]) s

/-- the declaration of a property has a `Value` -/
def HasValue (decl : Val) : Prop := ∃ w, look decl [.str "Value"] = some w ∧ w.truthy = true

/-- the entry of `ValueTypes` that the declaration of a property names for lists (`ListValueType`) or for values (`ValueType`) -/
def NamesEntryBy (field : String) (R : RegionSpec) (v entry : Val) : Prop :=
  ∃ n, look v [.str "Value", .str field] = some (.str n) ∧ n ≠ "" ∧ dlookup n R.valueTypes = some entry

/-- the entry that holds for a value which stands at `q` in the property: the one for lists where a list is to stand -/
def EntryFor (R : RegionSpec) (decl v : Val) (q : Path) (entry : Val) : Prop :=
  (SaysText decl "Type" "List" ∧ (∃ u, Leaf v q u) ∧ NamesEntryBy "ListValueType" R decl entry) ∨
  (¬ (SaysText decl "Type" "List" ∧ ∃ u, Leaf v q u) ∧ NamesEntryBy "ValueType" R decl entry)

/-- the entry allows references to parameters of the type; `P` is the part `ParameterTypes` of the specification -/
def AllowsParameter (P : List (String × List String)) (entry : Val) (ty : String) : Prop :=
  ∃ xs n tys, look entry [.str "Ref", .str "Parameters"] = some (.list xs) ∧ Val.str n ∈ xs ∧ dlookup n P = some tys ∧ ty ∈ tys

/-- the entry allows references to resources of the type -/
def AllowsResource (entry : Val) (ty : String) : Prop :=
  ∃ xs, look entry [.str "Ref", .str "Resources"] = some (.list xs) ∧ Val.str ty ∈ xs

/-- the entry allows the attribute of resources of the type -/
def AllowsAttribute (entry : Val) (ty a : String) : Prop :=
  (∃ xs, look entry [.str "GetAtt", .str ty] = some (.list xs) ∧ Val.str a ∈ xs) ∨ look entry [.str "GetAtt", .str ty] = some (.str a)

/-- the specification bounds the length of the document of the property -/
def BoundsDocument (R : RegionSpec) (decl : Val) (i : Int) : Prop :=
  SaysText decl "PrimitiveType" "Json" ∧ ∃ entry, NamesEntry R decl entry ∧ look entry [.str "JsonMax"] = some (.int i)

end Spec

/-! ### what the rules read of the specification -/

theorem mem_textsOf {xs : List Val} {s : String} : s ∈ textsOf xs ↔ Val.str s ∈ xs := by
  unfold textsOf
  rw [List.mem_filterMap]
  constructor
  · rintro ⟨x, hx, h⟩
    split at h
    · cases h; exact hx
    · cases h
  · exact fun h => ⟨_, h, rfl⟩

theorem mem_textsAt {name : String} {v : Val} {s : String} : s ∈ textsAt name v ↔ ∃ xs, look v [.str name] = some (.list xs) ∧ Val.str s ∈ xs := by
  unfold textsAt
  rw [get_look]
  split
  · rename_i xs h
    rw [mem_textsOf]
    constructor
    · exact fun hs => ⟨xs, h, hs⟩
    · rintro ⟨ys, hy, hs⟩
      rw [h] at hy
      cases hy
      exact hs
  · rename_i hn
    constructor
    · intro h; cases h
    · rintro ⟨xs, h, -⟩
      exact absurd h (hn xs)


theorem look_two {v : Val} {a k : Key} : look v [a, k] = (look v [a]).bind (fun w => look w [k]) := by
  cases v with
  | dict kvs => cases e : dlookup a kvs <;> simp [look, e]
  | _ => simp [look]

/-- **C138** What E3008 reads of the references that an entry of `ValueTypes` allows. -/
theorem C138_refs_read {P : List (String × List String)} {entry : Val} {s : RefSpec} (h : (refAttTypeView P entry).ref = some s) (ty : String) :
    ((∃ tys ∈ s.parameters, ty ∈ tys) ↔ AllowsParameter P entry ty) ∧ (ty ∈ s.resources ↔ AllowsResource entry ty) := by
  unfold refAttTypeView at h
  dsimp only at h
  split at h
  · rename_i x xs hr
    cases h
    rw [get_look] at hr
    have hl : ∀ k, look entry [.str "Ref", k] = look (.dict (x :: xs)) [k] := fun k => by rw [look_two, hr]; rfl
    unfold AllowsParameter AllowsResource
    simp only [hl]
    refine ⟨?_, mem_textsAt⟩
    constructor
    · rintro ⟨tys, hm, ht⟩
      obtain ⟨n, hn, rfl⟩ := List.mem_map.1 hm
      obtain ⟨ys, h1, h2⟩ := mem_textsAt.1 hn
      cases e : dlookup n P with
      | none => rw [e] at ht; cases ht
      | some tys => rw [e] at ht; exact ⟨ys, n, tys, h1, h2, e, ht⟩
    · rintro ⟨ys, n, tys, h1, h2, h3, h4⟩
      exact ⟨_, List.mem_map.2 ⟨n, mem_textsAt.2 ⟨ys, h1, h2⟩, rfl⟩, by rw [h3]; exact h4⟩
  · cases h

/-- **C138** … and whether it says anything of references -/
theorem C138_refs_said {P : List (String × List String)} {entry : Val} :
    (∃ s, (refAttTypeView P entry).ref = some s) ↔ ∃ x xs, look entry [.str "Ref"] = some (.dict (x :: xs)) := by
  unfold refAttTypeView
  dsimp only
  rw [get_look]
  split
  · rename_i x xs h
    exact ⟨fun _ => ⟨x, xs, h⟩, fun _ => ⟨_, rfl⟩⟩
  · rename_i hn
    constructor
    · rintro ⟨s, h⟩; cases h
    · rintro ⟨x, xs, h⟩
      exact absurd h (hn x xs)

/-- **C138** … and what it reads of the attributes -/
theorem C138_attributes_read {P : List (String × List String)} {entry : Val} (hw : entry.WF) {g : List (String × List String)}
    (h : (refAttTypeView P entry).getAtt = some g) (ty a : String) : (∃ as, (ty, as) ∈ g ∧ a ∈ as) ↔ AllowsAttribute entry ty a := by
  unfold refAttTypeView at h
  dsimp only at h
  split at h
  · rename_i kvs hr
    cases h
    rw [get_look] at hr
    have hl : ∀ k, look entry [.str "GetAtt", k] = look (.dict kvs) [k] := fun k => by rw [look_two, hr]; rfl
    have hkw : (Val.dict kvs).WF := by
      cases entry with
      | dict es => exact at_wf (at_dict_one.2 (dlookup_mem (look_key.1 hr))) hw
      | _ => simp [look] at hr
    rw [Val.WF] at hkw
    unfold AllowsAttribute
    simp only [hl, look_key]
    constructor
    · rintro ⟨as, hm, ha⟩
      obtain ⟨⟨k, v⟩, hk, e⟩ := List.mem_filterMap.1 hm
      dsimp only at e
      split at e
      · cases e
        exact .inl ⟨_, dlookup_of_mem hkw.1 hk, mem_textsOf.1 ha⟩
      · cases e
        cases List.mem_singleton.1 ha
        exact .inr (dlookup_of_mem hkw.1 hk)
      · cases e
    · rintro (⟨xs, h1, h2⟩ | h1)
      · exact ⟨_, List.mem_filterMap.2 ⟨_, dlookup_mem h1, rfl⟩, mem_textsOf.2 h2⟩
      · exact ⟨_, List.mem_filterMap.2 ⟨_, dlookup_mem h1, rfl⟩, List.mem_singleton.2 rfl⟩
  · cases h

/-- **C138** … and whether it says anything of them -/
theorem C138_attributes_said {P : List (String × List String)} {entry : Val} :
    (∃ g, (refAttTypeView P entry).getAtt = some g) ↔ ∃ kvs, look entry [.str "GetAtt"] = some (.dict kvs) := by
  unfold refAttTypeView
  dsimp only
  rw [get_look]
  split
  · rename_i kvs h
    exact ⟨fun _ => ⟨kvs, h⟩, fun _ => ⟨_, rfl⟩⟩
  · rename_i hn
    constructor
    · rintro ⟨s, h⟩; cases h
    · rintro ⟨kvs, h⟩
      exact absurd h (hn kvs)

theorem getAtt_nodup {P : List (String × List String)} {entry : Val} (hw : entry.WF) {g : List (String × List String)}
    (h : (refAttTypeView P entry).getAtt = some g) : (g.map Prod.fst).Nodup := by
  unfold refAttTypeView at h
  dsimp only at h
  split at h
  · rename_i kvs hr
    cases h
    rw [get_look] at hr
    have hkw : (Val.dict kvs).WF := by
      cases entry with
      | dict es => exact at_wf (at_dict_one.2 (dlookup_mem (look_key.1 hr))) hw
      | _ => simp [look] at hr
    rw [Val.WF] at hkw
    have hn := hkw.1
    clear hr hkw
    induction kvs with
    | nil => simp
    | cons kv kvs ih =>
      rw [List.map_cons, List.nodup_cons] at hn
      have ih := ih hn.2
      rw [List.filterMap_cons]
      split
      · exact ih
      · rename_i b hb
        rw [List.map_cons, List.nodup_cons]
        refine ⟨fun hm => ?_, ih⟩
        obtain ⟨c, hc, e⟩ := List.mem_map.1 hm
        obtain ⟨⟨k, v⟩, hk, hv⟩ := List.mem_filterMap.1 hc
        have key : ∀ (kv : Key × Val) (c : String × List String), (match kv.1, kv.2 with
            | .str s, .list xs => some (s, textsOf xs)
            | .str s, .str a => some (s, [a])
            | _, _ => none) = some c → kv.1 = .str c.1 := by
          rintro ⟨k, v⟩ c h
          dsimp only at h
          split at h <;> cases h <;> rfl
        have h1 := key _ _ hb
        have h2 := key _ _ hv
        rw [← e, ← h2] at h1
        exact hn.1 (List.mem_map.2 ⟨_, hk, h1.symm⟩)
  · cases h

/-- the entry that a declaration names in a field -/
theorem namedBy_iff {field : String} {R : RegionSpec} {P : List (String × List String)} {decl : Val} {y : RefAttType} :
    (match decl.get? "Value" with
      | some w => (((specText field w).bind (fun n => dlookup n R.valueTypes)).map (refAttTypeView P)).getD {}
      | none => {}) = y ↔ (∃ entry, NamesEntryBy field R decl entry ∧ y = refAttTypeView P entry) ∨ ((∀ entry, ¬ NamesEntryBy field R decl entry) ∧ y = {}) := by
  have hl : ∀ w, look decl [.str "Value"] = some w → ∀ k, look decl [.str "Value", k] = look w [k] := fun w h k => by rw [look_two, h]; rfl
  rw [get_look]
  split
  · rename_i w hv
    have hs : ∀ n, look decl [.str "Value", .str field] = some (.str n) ∧ n ≠ "" ↔ specText field w = some n := by
      intro n
      rw [specText_iff, hl w hv]
      exact Iff.rfl
    cases e : specText field w with
    | none =>
      have hno : ∀ entry, ¬ NamesEntryBy field R decl entry := by
        rintro entry ⟨n, h1, h2, -⟩
        rw [(hs n).1 ⟨h1, h2⟩] at e
        cases e
      constructor
      · intro h; exact .inr ⟨hno, h.symm⟩
      · rintro (⟨entry, h, -⟩ | ⟨-, h⟩)
        · exact absurd h (hno entry)
        · exact h.symm
    | some n =>
      obtain ⟨h1, h2⟩ := (hs n).2 e
      cases e' : dlookup n R.valueTypes with
      | none =>
        have hno : ∀ entry, ¬ NamesEntryBy field R decl entry := by
          rintro entry ⟨m, h3, h4, h5⟩
          rw [h1] at h3
          cases h3
          rw [e'] at h5
          cases h5
        simp only [Option.bind_some, e', Option.map_none, Option.getD_none]
        constructor
        · intro h; exact .inr ⟨hno, h.symm⟩
        · rintro (⟨entry, h, -⟩ | ⟨-, h⟩)
          · exact absurd h (hno entry)
          · exact h.symm
      | some entry =>
        have hyes : NamesEntryBy field R decl entry := ⟨n, h1, h2, e'⟩
        simp only [Option.bind_some, e', Option.map_some, Option.getD_some]
        constructor
        · intro h; exact .inl ⟨entry, hyes, h.symm⟩
        · rintro (⟨entry', ⟨m, h3, h4, h5⟩, h⟩ | ⟨h, -⟩)
          · rw [h1] at h3
            cases h3
            rw [e'] at h5
            cases h5
            exact h.symm
          · exact absurd hyes (h entry)
  · rename_i hv
    have hno : ∀ entry, ¬ NamesEntryBy field R decl entry := by
      rintro entry ⟨n, h, -⟩
      rw [look_two, hv] at h
      cases h
    constructor
    · intro h; exact .inr ⟨hno, h.symm⟩
    · rintro (⟨entry, h, -⟩ | ⟨-, h⟩)
      · exact absurd h (hno entry)
      · exact h.symm

/-- **C138** The entry that E3008 takes for a value is the one the declaration of the property names. -/
theorem C138_governed {R : RegionSpec} {P : List (String × List String)} {decl v entry : Val} {q : Path} (h : EntryFor R decl v q entry) :
    Governs (refAttRowView R P decl) v q (refAttTypeView P entry) := by
  rcases h with ⟨h1, h2, h3⟩ | ⟨h1, h3⟩
  · exact .inl ⟨specText_iff.2 h1, h2, (namedBy_iff.2 (.inl ⟨entry, h3, rfl⟩)).symm⟩
  · exact .inr ⟨fun h => h1 ⟨specText_iff.1 h.1, h.2⟩, (namedBy_iff.2 (.inl ⟨entry, h3, rfl⟩)).symm⟩

theorem hasValue_iff {R : RegionSpec} {P : List (String × List String)} {decl : Val} : (refAttRowView R P decl).hasValue = true ↔ HasValue decl := by
  unfold refAttRowView HasValue
  dsimp only
  rw [get_look]
  split
  · rename_i w h
    constructor
    · exact fun hw => ⟨w, h, hw⟩
    · rintro ⟨w', h', hw⟩
      rw [h] at h'
      cases h'
      exact hw
  · rename_i h
    constructor
    · intro h; cases h
    · rintro ⟨w, h', -⟩
      rw [h] at h'
      cases h'

theorem oneEntry_view {R : RegionSpec} (hR : ∀ n e, dlookup n R.valueTypes = some e → e.WF) (P : List (String × List String)) (decl : Val) :
    OneEntry (refAttRowView R P decl) := by
  have key : ∀ field y, (match decl.get? "Value" with
      | some w => (((specText field w).bind (fun n => dlookup n R.valueTypes)).map (refAttTypeView P)).getD {}
      | none => {}) = y → ∀ g, y.getAtt = some g → (g.map Prod.fst).Nodup := by
    intro field y hy g hg
    rcases namedBy_iff.1 hy with ⟨entry, ⟨n, -, -, hn⟩, rfl⟩ | ⟨-, rfl⟩
    · exact getAtt_nodup (hR n entry hn) hg
    · cases hg
  intro y hy g hg
  rcases List.mem_cons.1 hy with rfl | hy
  · exact key "ValueType" _ rfl g hg
  · cases List.mem_singleton.1 hy
    exact key "ListValueType" _ rfl g hg

/-- **C138** The properties that E3502 looks at, with the bounds it takes for them. -/
theorem C138_documents_read {R : RegionSpec} {spec : Val} (hw : spec.WF) {prop : String} {lim : Option Nat} :
    (prop, lim) ∈ jsonRows R spec ↔ ∃ decl w ws, PropertyIn spec (.str prop) decl ∧ look decl [.str "Value"] = some (.dict (w :: ws)) ∧
      SaysText decl "PrimitiveType" "Json" ∧ ∀ n, lim = some n ↔ ∃ i, BoundsDocument R decl i ∧ i.toNat = n := by
  have hlim : ∀ decl w ws, look decl [.str "Value"] = some (.dict (w :: ws)) → SaysText decl "PrimitiveType" "Json" → ∀ n,
      (((specText "ValueType" (.dict (w :: ws))).bind (fun n => dlookup n R.valueTypes)).bind (fun vt =>
          match vt.get? "JsonMax" with
          | some (.int i) => some i.toNat
          | _ => none)) = some n ↔ ∃ i, BoundsDocument R decl i ∧ i.toNat = n := by
    intro decl w ws hv hj n
    constructor
    · intro h
      rw [Option.bind_eq_some_iff] at h
      obtain ⟨vt, h1, h2⟩ := h
      rw [Option.bind_eq_some_iff] at h1
      obtain ⟨m, h3, h4⟩ := h1
      obtain ⟨h5, h6⟩ := specText_iff.1 h3
      split at h2
      · rename_i i hi
        cases h2
        exact ⟨i, ⟨hj, vt, ⟨m, by rw [look_two, hv]; exact h5, h6, h4⟩, by rw [← get_look]; exact hi⟩, rfl⟩
      · cases h2
    · rintro ⟨i, ⟨-, vt, ⟨m, h1, h2, h3⟩, h4⟩, rfl⟩
      rw [look_two, hv] at h1
      rw [specText_iff.2 ⟨h1, h2⟩]
      simp only [Option.bind_some, h3]
      rw [get_look, h4]
  unfold jsonRows
  rw [List.mem_filterMap]
  constructor
  · rintro ⟨⟨k, decl⟩, hm, h⟩
    dsimp only at h
    split at h
    · rename_i s w ws hv
      split at h
      · rename_i hj
        rw [get_look] at hv
        have hp := specProps_iff.1 (dlookup_of_mem (specProps_nodup hw) hm)
        have hj' := specText_iff.1 hj
        simp only [Option.some.injEq, Prod.mk.injEq] at h
        obtain ⟨rfl, rfl⟩ := h
        exact ⟨decl, w, ws, hp, hv, hj', hlim decl w ws hv hj'⟩
      · cases h
    · cases h
  · rintro ⟨decl, w, ws, h1, h2, h3, h4⟩
    refine ⟨(.str prop, decl), dlookup_mem (specProps_iff.2 h1), ?_⟩
    have h2' := h2
    rw [← get_look] at h2'
    simp only [h2', specText_iff.2 h3, if_true, Option.some.injEq, Prod.mk.injEq, true_and]
    exact Option.ext fun n => (hlim decl w ws h2 h3 n).trans (h4 n).symm

theorem jsonRows_nodup {R : RegionSpec} {spec : Val} (hw : spec.WF) : ((jsonRows R spec).map Prod.fst).Nodup := by
  have hn := specProps_nodup hw
  unfold jsonRows
  generalize specProps spec = l at hn
  induction l with
  | nil => simp
  | cons kv l ih =>
    rw [List.map_cons, List.nodup_cons] at hn
    have ih := ih hn.2
    rw [List.filterMap_cons]
    split
    · exact ih
    · rename_i b hb
      rw [List.map_cons, List.nodup_cons]
      refine ⟨fun hm => ?_, ih⟩
      obtain ⟨c, hc, e⟩ := List.mem_map.1 hm
      obtain ⟨kv', hk, hv⟩ := List.mem_filterMap.1 hc
      have key : ∀ (kv : Key × Val) (c : String × Option Nat), (match kv.1, kv.2.get? "Value" with
          | .str s, some (.dict (w :: ws)) =>
            if specText "PrimitiveType" kv.2 = some "Json" then
              some (s, ((specText "ValueType" (.dict (w :: ws))).bind (fun n => dlookup n R.valueTypes)).bind (fun vt =>
                match vt.get? "JsonMax" with
                | some (.int i) => some i.toNat
                | _ => none))
            else none
          | _, _ => none) = some c → kv.1 = .str c.1 := by
        rintro ⟨k, v⟩ c h
        dsimp only at h
        split at h
        · split at h
          · cases h; rfl
          · cases h
        · cases h
      have h1 := key _ _ hb
      have h2 := key _ _ hv
      rw [← e, ← h2] at h1
      exact hn.1 (List.mem_map.2 ⟨_, hk, h1.symm⟩)

/-- a rule of the specification was called on every object of a declared type, with the template and the declaration of the type -/
theorem bySpecOn_found {U R : RegionSpec} {check : Val → String → Val → Val → Path → PyM (List (Path × String))} {t : Val} (hw : t.WF)
    (hn : FoundNothing (traversed U) (bySpecOn R check) t) (hfo : FollowedIn U t) {top : Bool} {ty : String} {p : Path}
    {kvs : List (Key × Val)} (ho : TypedObject U t top ty p kvs) {spec : Val} (hd : DeclaredIn R top ty spec) :
    check t ty spec (.dict kvs) p = .ok [] ∨ ∃ s, check t ty spec (.dict kvs) p = .error (.templateAttributeError s) := by
  cases ho with
  | resource h =>
    have hd' : dlookup ty R.resourceTypes = some spec := hd
    have := hn _ (.properties (f := fun t obj ty path => check t ty ((dlookup ty R.resourceTypes).getD .none) obj path) rfl h
      (List.mem_map.2 ⟨_, dlookup_mem hd', rfl⟩))
    simp only [hd', Option.getD_some] at this
    exact this
  | below h hps hd0 ho =>
    have hd' : dlookup _ R.propertyTypes = some spec := hd
    obtain ⟨hs, hf⟩ := hfo _ _ _ _ h hps
    have := hn _ (.subProperties (f := fun t obj ty path => check t ty ((dlookup ty R.propertyTypes).getD .none) obj path) rfl h
      (C44_complete_partial (resourceWith_wf hw h) hps hs hf hd0 ho) (List.mem_map.2 ⟨_, dlookup_mem hd', rfl⟩))
    simp only [hd', Option.getD_some] at this
    exact this

theorem resourceIs_dict {t : Val} {k : Key} {v : Val} (h : ResourceIs t k v) : ∃ top, t = .dict top := by
  obtain ⟨rs, hat, -⟩ := h
  cases hat with
  | key h1 h2 => exact ⟨_, rfl⟩

section Clean

variable {objs : List RuleObj} {args : Sources} {all : List String} {regions : List Val} {beh : RuleObj → Behaviour}
  {name : Val → String} {mark : Val → MVal} {print : List Match → PyM Unit} {ds : List Decoded} {U R : RegionSpec}

/-- the references among the values of the properties of an object are to texts -/
def Spec.RefsAreTexts (spec : Val) (kvs : List (Key × Val)) : Prop :=
  ∀ prop decl v q x, PropertyIn spec (.str prop) decl → (Key.str prop, v) ∈ kvs → PropValue v q (.dict [(.str "Ref", x)]) → ∃ s, x = .str s

/-- **C138** If the command ends with status 0 and W2030 is in force, a parameter that a declared property refers to can only have values that the specification
allows for the property. Missing: properties and resources under a condition, which the rule does not look at; nulls. -/
theorem C138_values_partial {E : PyText} {n : Nat} {msg : Path → String}
    (h : CleanRun objs args all regions (traversed U) beh name mark print ds)
    (hbeh : ∀ r, r.info.id = "W2030" → beh r = paramAllowedOf R E (n + 2) msg)
    {d : Decoded} (hd : d ∈ ds) (hf : InForce objs args d.template { id := "W2030" }) (hfo : FollowedIn U d.template) (hpp : PlainParameters d.template)
    {top : Bool} {ty : String} {p : Path} {kvs : List (Key × Val)} (ho : TypedObject U d.template top ty p kvs)
    {spec : Val} (hs : DeclaredIn R top ty spec) (hw : spec.WF) (hobj : ∀ q u, Leaf (.dict kvs) q u → ∃ l, u = .dict l)
    (hnull : ∀ q l, Leaf (.dict kvs) q (.dict l) → NoNullDeclared spec l) (htext : ∀ q l, Leaf (.dict kvs) q (.dict l) → RefsAreTexts spec l)
    {k : Key} {r : List (Key × Val)} {rest : Path} (hr : ResourceIs d.template k (.dict r)) (hp : p = .str "Resources" :: k :: rest)
    (hif : Key.str "Fn::If" ∉ p) (hc : Key.str "Condition" ∉ r.map Prod.fst)
    {prop : String} {decl entry : Val} {xs : List Val} (hpr : PropertyIn spec (.str prop) decl) (hpn : prop ≠ "Fn::If") (he : NamesEntry R decl entry)
    (ha : look entry [.str "AllowedValues"] = some (.list xs)) {s : String} (hx : .str s ∈ xs)
    {v : Val} (hv : (Key.str prop, v) ∈ kvs) {m : String} (hu : UsesName v m) (hm : m ≠ "AWS::NoValue") {o : List (Key × Val)}
    (hpo : ParamIs d.template (.str m) (.dict o)) {x : Val} (hcan : CanBe o x) : .str (valueText E x) ∈ xs := by
  obtain ⟨rl, hri, hfound⟩ := clean_found h hd hf
  have hwt := clean_wf h hd
  rw [hbeh rl (by rw [hri])] at hfound
  have hcall := bySpecOn_found hwt hfound hfo ho hs
  have hkw := typedObject_wf hwt hfo ho
  obtain ⟨tt, hdt⟩ := resourceIs_dict hr
  subst hp
  rw [hdt] at hwt hpp hr hpo hcall
  obtain ⟨l, hl, hiff⟩ := C121_allowed E n hwt hpp hr rest (specRows_nodup (view := valueRowView R) hw) hkw hobj (fun q l hq => noNull_rows hw (hnull q l hq))
    (fun q l prop d v q' x hq hm hv hu => by
      obtain ⟨decl, hdecl, -⟩ := (specRows_iff hw).1 hm
      exact htext q l hq prop decl v q' x hdecl hv hu)
  have hnil := withText_nil hl hcall
  subst hnil
  by_contra hbad
  have hvt := C128_named.2 ⟨entry, he, rfl⟩
  have hbad' : NotListed (valueTypeView entry) (valueText E x) := by
    refine ⟨fun e => ?_, fun hmem => ?_⟩
    · have := ((C128_entry entry).allowed s).2 ⟨xs, ha, hx⟩
      rw [e] at this
      cases this
    · obtain ⟨ys, h1, h2⟩ := ((C128_entry entry).allowed _).1 hmem
      rw [ha] at h1
      cases h1
      exact hbad h2
  have hall : ∀ p, ¬ BadParamValue E (NotListed (valueTypeView entry)) (.str m) o p := by
    intro p hb
    cases (hiff p).2 ⟨fun hq => hif (List.mem_cons_of_mem _ hq), hc, m, _, o,
      ⟨prop, _, v, (specRows_iff hw).2 ⟨decl, hpr, rfl⟩, hvt, hpn, hv, hu, hm⟩, hpo, hb⟩
  obtain ⟨pty, h1, h2, ⟨ys, h3, h4⟩ | ⟨h3, h4⟩⟩ := hcan
  · obtain ⟨i, hi⟩ := List.mem_iff_getElem?.1 h4
    exact hall _ (.allowed h1 h2 h3 hi hbad')
  · exact hall _ (.default h1 h2 h3 h4 hbad')

/-- **C138** … and W2031 is in force, it can only have values that the expression of the property matches. Missing: properties and resources under a condition; nulls. -/
theorem C138_patterns_partial {E : PyText} {n : Nat} {msg : Path → String}
    (h : CleanRun objs args all regions (traversed U) beh name mark print ds)
    (hbeh : ∀ r, r.info.id = "W2031" → beh r = paramPatternOf R E (n + 2) msg)
    {d : Decoded} (hd : d ∈ ds) (hf : InForce objs args d.template { id := "W2031" }) (hfo : FollowedIn U d.template) (hpp : PlainParameters d.template)
    {top : Bool} {ty : String} {p : Path} {kvs : List (Key × Val)} (ho : TypedObject U d.template top ty p kvs)
    {spec : Val} (hs : DeclaredIn R top ty spec) (hw : spec.WF) (hobj : ∀ q u, Leaf (.dict kvs) q u → ∃ l, u = .dict l)
    (hnull : ∀ q l, Leaf (.dict kvs) q (.dict l) → NoNullDeclared spec l) (htext : ∀ q l, Leaf (.dict kvs) q (.dict l) → RefsAreTexts spec l)
    {k : Key} {r : List (Key × Val)} {rest : Path} (hr : ResourceIs d.template k (.dict r)) (hp : p = .str "Resources" :: k :: rest)
    (hif : Key.str "Fn::If" ∉ p) (hc : Key.str "Condition" ∉ r.map Prod.fst)
    {prop : String} {decl entry : Val} {re : String} (hpr : PropertyIn spec (.str prop) decl) (hpn : prop ≠ "Fn::If") (he : NamesEntry R decl entry)
    (ha : SaysText entry "AllowedPatternRegex" re)
    {v : Val} (hv : (Key.str prop, v) ∈ kvs) {m : String} (hu : UsesName v m) (hm : m ≠ "AWS::NoValue") {o : List (Key × Val)}
    (hpo : ParamIs d.template (.str m) (.dict o)) {x : Val} (hcan : CanBe o x) : E.matches_ re (valueText E x) = true := by
  obtain ⟨rl, hri, hfound⟩ := clean_found h hd hf
  have hwt := clean_wf h hd
  rw [hbeh rl (by rw [hri])] at hfound
  have hcall := bySpecOn_found hwt hfound hfo ho hs
  have hkw := typedObject_wf hwt hfo ho
  obtain ⟨tt, hdt⟩ := resourceIs_dict hr
  subst hp
  rw [hdt] at hwt hpp hr hpo hcall
  obtain ⟨l, hl, hiff⟩ := C121_pattern E n hwt hpp hr rest (specRows_nodup (view := valueRowView R) hw) hkw hobj (fun q l hq => noNull_rows hw (hnull q l hq))
    (fun q l prop d v q' x hq hm hv hu => by
      obtain ⟨decl, hdecl, -⟩ := (specRows_iff hw).1 hm
      exact htext q l hq prop decl v q' x hdecl hv hu)
  have hnil := withText_nil hl hcall
  subst hnil
  by_contra hbad
  have hvt := C128_named.2 ⟨entry, he, rfl⟩
  obtain ⟨e, hne⟩ := ((C128_entry entry).pattern re).2 ha
  have hbad' : NotMatched E (valueTypeView entry) (valueText E x) := by
    refine ⟨by rw [e]; exact hne, by rw [e]; simpa using hbad⟩
  have hall : ∀ p, ¬ BadParamValue E (NotMatched E (valueTypeView entry)) (.str m) o p := by
    intro p hb
    cases (hiff p).2 ⟨fun hq => hif (List.mem_cons_of_mem _ hq), hc, m, _, o,
      ⟨prop, _, v, (specRows_iff hw).2 ⟨decl, hpr, rfl⟩, hvt, hpn, hv, hu, hm⟩, hpo, hb⟩
  obtain ⟨pty, h1, h2, ⟨ys, h3, h4⟩ | ⟨h3, h4⟩⟩ := hcan
  · obtain ⟨i, hi⟩ := List.mem_iff_getElem?.1 h4
    exact hall _ (.allowed h1 h2 h3 hi hbad')
  · exact hall _ (.default h1 h2 h3 h4 hbad')

/-- **C138** … and E1027 is in force, no line that is a value of a property of a primitive type, an entry of its map or the text of its `Fn::Sub` has a reference to a
secret, but for the properties that take them. Missing: texts of several lines (C101), nulls, empty `Fn::Sub`. -/
theorem C138_secrets_partial {digit : Char → Bool} (hdg : digit '\n' = false) {n : Nat} {msg : Path → String}
    (h : CleanRun objs args all regions (traversed U) beh name mark print ds)
    (hbeh : ∀ r, r.info.id = "E1027" → beh r = secureOf R digit (n + 2) msg)
    {d : Decoded} (hd : d ∈ ds) (hf : InForce objs args d.template { id := "E1027" }) (hfo : FollowedIn U d.template)
    {top : Bool} {ty : String} {p : Path} {kvs : List (Key × Val)} (ho : TypedObject U d.template top ty p kvs)
    {spec : Val} (hs : DeclaredIn R top ty spec) (hw : spec.WF) (hnull : NoNullDeclared spec kvs)
    (hsub : ∀ prop v q, (.str prop, v) ∈ kvs → ¬ PropValue v q (.dict [(.str "Fn::Sub", .list [])]))
    {prop pt : String} {decl : Val} (hpr : PropertyIn spec (.str prop) decl) (hdp : DeclaresPrimitive spec prop pt) (hnt : ¬ TakesSecure ty prop)
    {v u : Val} (hv : (Key.str prop, v) ∈ kvs) {q : Path} (hu : PropValue v q u) {s : String} (hs' : TextIn (SaysText decl "Type" "Map") u s) :
    ¬ (HasSecureRef digit s ∧ IsLine s) := by
  obtain ⟨rl, hri, hfound⟩ := clean_found h hd hf
  have hwt := clean_wf h hd
  rw [hbeh rl (by rw [hri])] at hfound
  have hcall := bySpecOn_found hwt hfound hfo ho hs
  have hno := finds_nil (C101_reports_partial (specType := ty) (path := p) hdg (specRows_nodup (view := rowView) hw) (typedObject_wf hwt hfo ho) (noNull_rows hw hnull) hsub n) hcall
  intro hseen
  obtain ⟨row, h1, h2⟩ := (C128_declared hw).2 hdp
  obtain ⟨decl', h3, rfl⟩ := (specRows_iff hw).1 h1
  have : decl' = decl := by
    rw [PropertyIn] at h3 hpr
    rw [h3] at hpr
    exact Option.some.inj hpr
  subst this
  have hfault : ∃ r, TextFault (SeenRef digit) (rowView decl') u r := by
    cases hs' with
    | value hm => exact ⟨_, .value (fun e => hm (specText_iff.1 e)) hseen⟩
    | entry hm hk hmem => exact ⟨_, .entry (specText_iff.2 hm) hk hmem hseen⟩
    | sub => exact ⟨_, .sub hseen⟩
    | subList => exact ⟨_, .subList hseen⟩
  obtain ⟨r, hr⟩ := hfault
  exact hno _ ⟨prop, _, pt, v, q, u, r, h1, hnt, h2, hv, hu, hr, rfl⟩

/-- **C138** … and E3502 is in force, the documents of properties are no longer than the specification allows. Missing: conditions, `Fn::Sub` without a text. -/
theorem C138_documents_partial {below : Val → Path → List Scenario} {msg : Path → String}
    (h : CleanRun objs args all regions (traversed U) beh name mark print ds)
    (hbeh : ∀ r, r.info.id = "E3502" → beh r = jsonSizesOf R below msg)
    {d : Decoded} (hd : d ∈ ds) (hf : InForce objs args d.template { id := "E3502" }) (hfo : FollowedIn U d.template)
    {top : Bool} {ty : String} {p : Path} {kvs : List (Key × Val)} (ho : TypedObject U d.template top ty p kvs)
    {spec : Val} (hs : DeclaredIn R top ty spec) (hw : spec.WF) (hobj : ∀ q u, Leaf (.dict kvs) q u → ∃ l, u = .dict l)
    (hb : ∀ q, below d.template (p ++ q) = [])
    (hbd : ∀ prop decl, PropertyIn spec (.str prop) decl → HasValue decl → SaysText decl "PrimitiveType" "Json" → prop ≠ "Ref" ∧ ∃ i, BoundsDocument R decl i)
    (hsub : ∀ q l prop decl doc, Leaf (.dict kvs) q (.dict l) → PropertyIn spec (.str prop) decl → (Key.str prop, doc) ∈ l → SubsAreTexts doc)
    {prop : String} {decl : Val} {i : Int} (hpr : PropertyIn spec (.str prop) decl) (hbi : BoundsDocument R decl i)
    {q : Path} {l : List (Key × Val)} (hl : Leaf (.dict kvs) q (.dict l)) {doc : Val} (hdoc : (Key.str prop, doc) ∈ l) (hnv : doc ≠ noValue)
    {w : Val} (hm : Measured doc w) : (compact w).length ≤ i.toNat := by
  obtain ⟨rl, hri, hfound⟩ := clean_found h hd hf
  have hwt := clean_wf h hd
  rw [hbeh rl (by rw [hri])] at hfound
  have hcall := bySpecOn_found hwt hfound hfo ho hs
  have hno := finds_nil (C106_exact_partial (path := p) (typedObject_wf hwt hfo ho) (jsonRows_nodup hw) (fun prop lim hm => by
      obtain ⟨decl, w, ws, h1, h2, h3, h4⟩ := (C138_documents_read hw).1 hm
      obtain ⟨h5, i, h6⟩ := hbd prop decl h1 ⟨_, h2, rfl⟩ h3
      exact ⟨_, (h4 _).2 ⟨i, h6, rfl⟩, h5⟩) hobj hb (fun q l prop lim doc hq hm hv => by
      obtain ⟨decl, w, ws, h1, -⟩ := (C138_documents_read hw).1 hm
      exact hsub q l prop decl doc hq h1 hv)) hcall
  by_contra hc
  obtain ⟨hj, entry, ⟨nm, h1, h2, h3⟩, h4⟩ := hbi
  obtain ⟨w0, ws0, hval⟩ : ∃ w0 ws0, look decl [.str "Value"] = some (.dict (w0 :: ws0)) := by
    rw [look_two] at h1
    rw [Option.bind_eq_some_iff] at h1
    obtain ⟨x, hx, hx'⟩ := h1
    cases x with
    | dict es =>
      cases es with
      | nil => simp [look, dlookup] at hx'
      | cons e es => exact ⟨e, es, hx⟩
    | _ => simp [look] at hx'
  refine hno _ ⟨q, l, prop, i.toNat, doc, hl, (C138_documents_read hw).2 ⟨decl, w0, ws0, hpr, hval, hj, fun m => ?_⟩, hdoc, hnv, ⟨w, hm, by omega⟩, rfl⟩
  constructor
  · intro e
    cases e
    exact ⟨i, ⟨hj, entry, ⟨nm, h1, h2, h3⟩, h4⟩, rfl⟩
  · rintro ⟨j, ⟨-, entry', ⟨nm', h5, h6, h7⟩, h8⟩, rfl⟩
    rw [h1] at h5
    cases h5
    rw [h3] at h7
    cases h7
    rw [h4] at h8
    cases h8
    rfl

/-- what is asked of a template, of a specification and of an object for E3008: the sections are objects, the specification is well formed, no nulls, and the
calls in the values can be looked up -/
structure Spec.UsesReadable (R : RegionSpec) (t : Val) (spec : Val) (kvs : List (Key × Val)) : Prop where
  sections : TwoSections t
  specWf : spec.WF
  entries : ∀ n e, dlookup n R.valueTypes = some e → e.WF
  noIf : ∀ decl, ¬ PropertyIn spec (.str "Fn::If") decl
  objects : ∀ q u, Leaf (.dict kvs) q u → ∃ l, u = .dict l
  noNull : ∀ q l, Leaf (.dict kvs) q (.dict l) → NoNullDeclared spec l
  calls : ∀ o l prop decl v q u, Leaf (.dict kvs) o (.dict l) → PropertyIn spec (.str prop) decl → (Key.str prop, v) ∈ l → PropValue v q u → RefAttCall t u

theorem uses_silent {P : List (String × List String)} {E : PyText} {n : Nat} {msg : Path → String}
    (h : CleanRun objs args all regions (traversed U) beh name mark print ds)
    (hbeh : ∀ r, r.info.id = "E3008" → beh r = refAttsOf R P E (n + 2) msg)
    {d : Decoded} (hd : d ∈ ds) (hf : InForce objs args d.template { id := "E3008" }) (hfo : FollowedIn U d.template)
    {top : Bool} {ty : String} {p : Path} {kvs : List (Key × Val)} (ho : TypedObject U d.template top ty p kvs)
    {spec : Val} (hs : DeclaredIn R top ty spec) (hu : UsesReadable R d.template spec kvs)
    {prop : String} {decl : Val} (hpr : PropertyIn spec (.str prop) decl) (hval : HasValue decl)
    {q0 : Path} {l : List (Key × Val)} (hl : Leaf (.dict kvs) q0 (.dict l)) {v u : Val} (hv : (Key.str prop, v) ∈ l) {q : Path} (hpv : PropValue v q u) (r : Path) :
    ¬ RefAttFault d.template (refAttRowView R P decl) v q u r := by
  obtain ⟨rl, hri, hfound⟩ := clean_found h hd hf
  have hwt := clean_wf h hd
  rw [hbeh rl (by rw [hri])] at hfound
  have hcall := bySpecOn_found hwt hfound hfo ho hs
  have hno := finds_nil (C103_exact_partial E n hu.sections p (specRows_nodup (view := refAttRowView R P) hu.specWf) (fun prop row hm => by
      obtain ⟨decl, h1, rfl⟩ := (specRows_iff hu.specWf).1 hm
      exact ⟨oneEntry_view hu.entries P decl, fun e => hu.noIf decl (by rw [← e]; exact h1)⟩)
    (typedObject_wf hwt hfo ho) hu.objects (fun q l hq => noNull_rows hu.specWf (hu.noNull q l hq)) (fun o l prop row v q u h1 h2 h3 h4 => by
      obtain ⟨decl, h5, -⟩ := (specRows_iff hu.specWf).1 h2
      exact hu.calls o l prop decl v q u h1 h5 h3 h4)) hcall
  intro hfault
  exact hno _ ⟨q0, l, prop, _, v, q, u, r, hl, (specRows_iff hu.specWf).2 ⟨decl, hpr, rfl⟩, hasValue_iff.2 hval, hv, hpv, hfault, rfl⟩

/-- **C138** … and E3008 is in force, a value refers only to parameters of the types that the specification allows for the property. Missing: what `UsesReadable` asks. -/
theorem C138_parameters_partial {P : List (String × List String)} {E : PyText} {n : Nat} {msg : Path → String}
    (h : CleanRun objs args all regions (traversed U) beh name mark print ds)
    (hbeh : ∀ r, r.info.id = "E3008" → beh r = refAttsOf R P E (n + 2) msg)
    {d : Decoded} (hd : d ∈ ds) (hf : InForce objs args d.template { id := "E3008" }) (hfo : FollowedIn U d.template)
    {top : Bool} {ty : String} {p : Path} {kvs : List (Key × Val)} (ho : TypedObject U d.template top ty p kvs)
    {spec : Val} (hs : DeclaredIn R top ty spec) (hu : UsesReadable R d.template spec kvs)
    {prop : String} {decl entry : Val} (hpr : PropertyIn spec (.str prop) decl) (hval : HasValue decl)
    {q0 : Path} {l : List (Key × Val)} (hl : Leaf (.dict kvs) q0 (.dict l)) {v : Val} (hv : (Key.str prop, v) ∈ l) {q : Path} {m : String}
    (hpv : PropValue v q (.dict [(.str "Ref", .str m)])) (he : EntryFor R decl v q entry)
    {x : Key × Val} {xs : List (Key × Val)} (hr : look entry [.str "Ref"] = some (.dict (x :: xs)))
    {e : List (Key × Val)} (hsec : SectionHas d.template "Parameters" m e) : ∃ pty, (Key.str "Type", Val.str pty) ∈ e ∧ AllowsParameter P entry pty := by
  have hno := uses_silent h hbeh hd hf hfo ho hs hu hpr hval hl hv hpv
  obtain ⟨s, hsref⟩ := C138_refs_said (P := P).2 ⟨x, xs, hr⟩
  by_contra hc
  refine hno _ (.ref (C138_governed he) ⟨s, hsref, .inl ⟨e, hsec, ?_⟩⟩)
  rintro ⟨tys, h1, pty, h2, h3⟩
  exact hc ⟨pty, h3, (C138_refs_read hsref pty).1.1 ⟨tys, h1, h2⟩⟩

/-- **C138** … only to resources of the types that it allows … -/
theorem C138_resources_partial {P : List (String × List String)} {E : PyText} {n : Nat} {msg : Path → String}
    (h : CleanRun objs args all regions (traversed U) beh name mark print ds)
    (hbeh : ∀ r, r.info.id = "E3008" → beh r = refAttsOf R P E (n + 2) msg)
    {d : Decoded} (hd : d ∈ ds) (hf : InForce objs args d.template { id := "E3008" }) (hfo : FollowedIn U d.template)
    {top : Bool} {ty : String} {p : Path} {kvs : List (Key × Val)} (ho : TypedObject U d.template top ty p kvs)
    {spec : Val} (hs : DeclaredIn R top ty spec) (hu : UsesReadable R d.template spec kvs)
    {prop : String} {decl entry : Val} (hpr : PropertyIn spec (.str prop) decl) (hval : HasValue decl)
    {q0 : Path} {l : List (Key × Val)} (hl : Leaf (.dict kvs) q0 (.dict l)) {v : Val} (hv : (Key.str prop, v) ∈ l) {q : Path} {m : String}
    (hpv : PropValue v q (.dict [(.str "Ref", .str m)])) (he : EntryFor R decl v q entry)
    {x : Key × Val} {xs : List (Key × Val)} (hr : look entry [.str "Ref"] = some (.dict (x :: xs)))
    {e : List (Key × Val)} (hsec : SectionHas d.template "Resources" m e) : ∃ rty, (Key.str "Type", Val.str rty) ∈ e ∧ AllowsResource entry rty := by
  have hno := uses_silent h hbeh hd hf hfo ho hs hu hpr hval hl hv hpv
  obtain ⟨s, hsref⟩ := C138_refs_said (P := P).2 ⟨x, xs, hr⟩
  by_contra hc
  refine hno _ (.ref (C138_governed he) ⟨s, hsref, .inr ⟨e, hsec, ?_⟩⟩)
  rintro ⟨rty, h1, h2⟩
  exact hc ⟨rty, h2, (C138_refs_read hsref rty).2.1 h1⟩

/-- **C138** … and only to attributes that it allows; outputs of nested stacks may stand anywhere but for lists … -/
theorem C138_attributes_partial {P : List (String × List String)} {E : PyText} {n : Nat} {msg : Path → String}
    (h : CleanRun objs args all regions (traversed U) beh name mark print ds)
    (hbeh : ∀ r, r.info.id = "E3008" → beh r = refAttsOf R P E (n + 2) msg)
    {d : Decoded} (hd : d ∈ ds) (hf : InForce objs args d.template { id := "E3008" }) (hfo : FollowedIn U d.template)
    {top : Bool} {ty : String} {p : Path} {kvs : List (Key × Val)} (ho : TypedObject U d.template top ty p kvs)
    {spec : Val} (hs : DeclaredIn R top ty spec) (hu : UsesReadable R d.template spec kvs)
    {prop : String} {decl entry : Val} (hpr : PropertyIn spec (.str prop) decl) (hval : HasValue decl)
    {q0 : Path} {l : List (Key × Val)} (hl : Leaf (.dict kvs) q0 (.dict l)) {v : Val} (hv : (Key.str prop, v) ∈ l) {q : Path} {arg : Val}
    (hpv : PropValue v q (.dict [(.str "Fn::GetAtt", arg)])) (he : EntryFor R decl v q entry)
    {g : List (Key × Val)} (hg : look entry [.str "GetAtt"] = some (.dict g))
    {m a rty : String} {e : List (Key × Val)} (harg : AttArg arg m a) (hsec : SectionHas d.template "Resources" m e) (hty : (Key.str "Type", Val.str rty) ∈ e)
    (hcu : ¬ CustomType rty) :
    (StackOutput rty a ∧ ¬ (SaysText decl "Type" "List" ∧ ∃ u, Leaf v q u)) ∨ (¬ StackOutput rty a ∧ AllowsAttribute entry rty a) := by
  have hno := uses_silent h hbeh hd hf hfo ho hs hu hpr hval hl hv hpv
  obtain ⟨g', hg'⟩ := C138_attributes_said (P := P).2 ⟨g, hg⟩
  have hew : entry.WF := by
    rcases he with ⟨-, -, nm, -, -, h⟩ | ⟨-, nm, -, -, h⟩ <;> exact hu.entries _ _ h
  by_contra hc
  refine hno _ (.att harg hsec hty ⟨hcu, ?_⟩)
  by_cases hso : StackOutput rty a
  · refine .inl ⟨hso, ?_⟩
    by_contra hn
    refine hc (.inl ⟨hso, fun ⟨h1, h2⟩ => hn ⟨specText_iff.2 h1, h2⟩⟩)
  · refine .inr ⟨hso, _, g', C138_governed he, hg', fun hx => hc (.inr ⟨hso, (C138_attributes_read hew hg' rty a).1 hx⟩)⟩

end Clean

/-- the rules on what properties use -/
def useIds : List String := ["W2030", "W2031", "E1027", "E3502", "E3008"]

/-- the rules are those of the model; `P` is the part `ParameterTypes` of the specification -/
structure UseRules (beh : RuleObj → Behaviour) (R : RegionSpec) (P : List (String × List String)) (E : PyText) (digit : Char → Bool)
    (below : Val → Path → List Scenario) (n : Nat) (msg : Path → String) : Prop where
  values : ∀ r, r.info.id = "W2030" → beh r = paramAllowedOf R E (n + 2) msg
  patterns : ∀ r, r.info.id = "W2031" → beh r = paramPatternOf R E (n + 2) msg
  secrets : ∀ r, r.info.id = "E1027" → beh r = secureOf R digit (n + 2) msg
  documents : ∀ r, r.info.id = "E3502" → beh r = jsonSizesOf R below msg
  uses : ∀ r, r.info.id = "E3008" → beh r = refAttsOf R P E (n + 2) msg

/-- what the rules on what properties use are for -/
structure Spec.UsesRight (U R : RegionSpec) (P : List (String × List String)) (E : PyText) (digit : Char → Bool) (t : Val) : Prop where
  values : ∀ top ty p kvs spec prop decl entry xs s v m o x, TypedObject U t top ty p kvs → DeclaredIn R top ty spec → PropertyIn spec (.str prop) decl →
    NamesEntry R decl entry → look entry [.str "AllowedValues"] = some (.list xs) → .str s ∈ xs → (Key.str prop, v) ∈ kvs → UsesName v m →
    ParamIs t (.str m) (.dict o) → CanBe o x → .str (valueText E x) ∈ xs
  patterns : ∀ top ty p kvs spec prop decl entry re v m o x, TypedObject U t top ty p kvs → DeclaredIn R top ty spec → PropertyIn spec (.str prop) decl →
    NamesEntry R decl entry → SaysText entry "AllowedPatternRegex" re → (Key.str prop, v) ∈ kvs → UsesName v m →
    ParamIs t (.str m) (.dict o) → CanBe o x → E.matches_ re (valueText E x) = true
  secrets : ∀ top ty p kvs spec prop pt decl v q u s, TypedObject U t top ty p kvs → DeclaredIn R top ty spec → PropertyIn spec (.str prop) decl →
    DeclaresPrimitive spec prop pt → ¬ TakesSecure ty prop → (Key.str prop, v) ∈ kvs → PropValue v q u → TextIn (SaysText decl "Type" "Map") u s → ¬ HasSecureRef digit s
  documents : ∀ top ty p kvs spec prop decl i doc w, TypedObject U t top ty p kvs → DeclaredIn R top ty spec → PropertyIn spec (.str prop) decl →
    BoundsDocument R decl i → (Key.str prop, doc) ∈ kvs → Measured doc w → (compact w).length ≤ i.toNat
  parameters : ∀ top ty p kvs spec prop decl entry v q m x xs e, TypedObject U t top ty p kvs → DeclaredIn R top ty spec → PropertyIn spec (.str prop) decl →
    (Key.str prop, v) ∈ kvs → PropValue v q (.dict [(.str "Ref", .str m)]) → EntryFor R decl v q entry → look entry [.str "Ref"] = some (.dict (x :: xs)) →
    SectionHas t "Parameters" m e → ∃ pty, (Key.str "Type", Val.str pty) ∈ e ∧ AllowsParameter P entry pty
  resources : ∀ top ty p kvs spec prop decl entry v q m x xs e, TypedObject U t top ty p kvs → DeclaredIn R top ty spec → PropertyIn spec (.str prop) decl →
    (Key.str prop, v) ∈ kvs → PropValue v q (.dict [(.str "Ref", .str m)]) → EntryFor R decl v q entry → look entry [.str "Ref"] = some (.dict (x :: xs)) →
    SectionHas t "Resources" m e → ∃ rty, (Key.str "Type", Val.str rty) ∈ e ∧ AllowsResource entry rty
  attributes : ∀ top ty p kvs spec prop decl entry v q arg g m a rty e, TypedObject U t top ty p kvs → DeclaredIn R top ty spec → PropertyIn spec (.str prop) decl →
    (Key.str prop, v) ∈ kvs → PropValue v q (.dict [(.str "Fn::GetAtt", arg)]) → EntryFor R decl v q entry → look entry [.str "GetAtt"] = some (.dict g) →
    AttArg arg m a → SectionHas t "Resources" m e → (Key.str "Type", Val.str rty) ∈ e → ¬ CustomType rty → StackOutput rty a ∨ AllowsAttribute entry rty a

/-- **C138** The full statement: if the command ends with status 0 and the rules on what properties use are in force, what they are for holds of the templates. -/
def C138_statement : Prop :=
  ∀ (objs : List RuleObj) (args : Sources) (all : List String) (regions : List Val) (U R : RegionSpec) (beh : RuleObj → Behaviour) (name : Val → String)
    (mark : Val → MVal) (print : List Match → PyM Unit) (ds : List Decoded) (P : List (String × List String)) (E : PyText) (digit : Char → Bool)
    (below : Val → Path → List Scenario) (n : Nat) (msg : Path → String),
    CleanRun objs args all regions (traversed U) beh name mark print ds → UseRules beh R P E digit below n msg → ∀ d ∈ ds,
    (∀ i ∈ useIds, InForce objs args d.template { id := i }) → UsesRight U R P E digit d.template

/-- a specification with one type of resources -/
def exUseEntry : Val := .dict [(.str "AllowedValues", .list [.str "new"]), (.str "AllowedPatternRegex", .str "new"),
  (.str "Ref", .dict [(.str "Parameters", .list [.str "Texts"]), (.str "Resources", .list [.str "T"])]),
  (.str "GetAtt", .dict [(.str "T", .list [.str "Arn"]), (.str "S", .str "Name")])]

def exUseK : Val := .dict [(.str "PrimitiveType", .str "String"), (.str "Value", .dict [(.str "ValueType", .str "V")])]

def exUseD : Val := .dict [(.str "PrimitiveType", .str "Json"), (.str "Value", .dict [(.str "ValueType", .str "J")])]

def exUseSpec : Val := .dict [(.str "Properties", .dict [(.str "K", exUseK), (.str "D", exUseD)])]

def exUseRegion : RegionSpec where
  resourceTypes := [("T", exUseSpec)]
  propertyTypes := []
  valueTypes := [("V", exUseEntry), ("J", .dict [(.str "JsonMax", .int 9)])]

def exUseParams : List (String × List String) := [("Texts", ["String"])]

def exUseText : PyText where
  shown _ := ""
  matches_ p s := p = s
  toFloat _ := none
  le _ _ := false

def exUseRules (r : RuleObj) : Behaviour :=
  if r.info.id = "W2030" then paramAllowedOf exUseRegion exUseText 2 (fun _ => "m")
  else if r.info.id = "W2031" then paramPatternOf exUseRegion exUseText 2 (fun _ => "m")
  else if r.info.id = "E1027" then secureOf exUseRegion (fun c => c.isDigit) 2 (fun _ => "m")
  else if r.info.id = "E3502" then jsonSizesOf exUseRegion (fun _ _ => []) (fun _ => "m")
  else refAttsOf exUseRegion exUseParams exUseText 2 (fun _ => "m")

theorem exUseRules_rules : UseRules exUseRules exUseRegion exUseParams exUseText (fun c => c.isDigit) (fun _ _ => []) 0 (fun _ => "m") := by
  constructor <;> intro r hr <;> simp [exUseRules, hr]

theorem exUse_run {t : Val} (hw : t.WF) (ht : t.truthy = true ∧ ∃ top, t = .dict top) (ha : setTemplateArgs t = .ok [])
    (hd : getDirectives (markAll default t) = .ok [])
    (hr : runCommand .script (withIds useIds) (c50Args [] false []) (checkWith [] [] (traversed ⟨[], [], []⟩) exUseRules (fun _ => "t") (markAll default))
      (fun _ => .ok ()) [⟨t, []⟩] = 0) :
    CleanRun (withIds useIds) (c50Args [] false []) [] [] (traversed ⟨[], [], []⟩) exUseRules (fun _ => "t") (markAll default) (fun _ => .ok ()) [⟨t, []⟩] :=
  rules_clean (severity_ids (by decide)) (fun r t => by
    unfold exUseRules
    split
    · rfl
    · split
      · rfl
      · split
        · rfl
        · split <;> rfl) hw ht ha hd hr

theorem exUse_inForce {t : Val} (ha : setTemplateArgs t = .ok []) {i : String} (hi : i ∈ useIds) :
    InForce (withIds useIds) (c50Args [] false []) t { id := i } := by
  refine rules_inForce hi ha ?_
  revert i
  decide

theorem exUse_K : PropertyIn exUseSpec (.str "K") exUseK := by unfold PropertyIn; decide

theorem exUse_D : PropertyIn exUseSpec (.str "D") exUseD := by unfold PropertyIn; decide

/-- a resource under a condition -/
def exUseCond : Val :=
  .dict [(.str "Parameters", .dict [(.str "P", .dict [(.str "Type", .str "String"), (.str "AllowedValues", .list [.str "old"])])]),
    (.str "Resources", .dict [(.str "R", .dict [(.str "Type", .str "T"), (.str "Condition", .str "C"), (.str "Properties", .dict [(.str "K", .dict [(.str "Ref", .str "P")])])])])]

theorem exSingleText : SingleParam "String" := by
  refine ⟨?_, ?_, by decide⟩ <;> (intro h; exact absurd (List.isPrefixOf_iff_prefix.2 h) (by decide))

/-- C138 fails as it stands: W2030 says nothing of a resource with a condition. -/
theorem C138_condition_violated : ¬ C138_statement := by
  intro h
  have hrun := exUse_run (t := exUseCond) (by simp [exUseCond, Val.WF, Val.WFDict, Val.WFList]) ⟨rfl, _, rfl⟩ rfl (by decide +kernel) (by decide +kernel)
  have := (h _ _ _ _ ⟨[], [], []⟩ _ _ _ _ _ _ _ _ _ _ _ _ hrun exUseRules_rules _ List.mem_cons_self (fun i hi => exUse_inForce rfl hi)).values true "T" _ _ exUseSpec "K" exUseK
    exUseEntry _ "new" _ "P" _ (.str "old") (.resource (name := .str "R") ⟨_, _, _, rfl, List.mem_cons_of_mem _ List.mem_cons_self, List.mem_cons_self, rfl, rfl⟩) rfl exUse_K
    ⟨"V", by decide, by decide, rfl⟩ rfl List.mem_cons_self List.mem_cons_self (.inl rfl) ⟨_, at_dict_one.2 List.mem_cons_self, List.mem_cons_self⟩
    ⟨"String", List.mem_cons_self, exSingleText, .inl ⟨_, List.mem_cons_of_mem _ List.mem_cons_self, List.mem_cons_self⟩⟩
  simp [valueText] at this

/-! ### the hypotheses are met -/

theorem exUse_followed (t : Val) : FollowedIn ⟨[], [], []⟩ t := by
  intro name rt props ps _ h
  simp [traversed, dlookup] at h

theorem exUse_object (kvs : List (Key × Val)) : TypedObject ⟨[], [], []⟩ (exTypedOne "T" kvs) true "T" [.str "Resources", .str "R", .str "Properties"] kvs :=
  .resource (exTypedOne_resource "T" kvs)

theorem exUseSpec_wf : exUseSpec.WF := by simp [exUseSpec, exUseK, exUseD, Val.WF, Val.WFDict]

theorem exUse_leaf {k : String} (hk : k ≠ "Fn::If") {w : Val} {q : Path} {u : Val} (h : Leaf (.dict [(.str k, w)]) q u) : q = [] ∧ u = .dict [(.str k, w)] := by
  have := (leaf_plain (by intro x hx; simp at hx; exact hk hx.1.symm)).1 h
  exact ⟨this.1, this.2.1⟩

theorem exUse_noNull {k : String} {w : Val} (hw : NeverNull [(.str k, w)] k) : NoNullDeclared exUseSpec [(.str k, w)] := by
  intro prop decl v _ hv
  simp at hv
  obtain ⟨rfl, rfl⟩ := hv
  exact hw _ List.mem_cons_self

theorem exUse_params (kvs : List (Key × Val)) : PlainParameters (exTypedOne "T" kvs) := by
  have hsec : ∀ v, At (exTypedOne "T" kvs) [.str "Parameters"] v →
      v = .dict [(.str "P", .dict [(.str "Type", .str "String"), (.str "AllowedValues", .list [.str "new"])])] := by
    intro v h
    have := at_dict_one.1 h
    simp at this
    exact this
  have hpar : ∀ n v, ParamIs (exTypedOne "T" kvs) n v → v = .dict [(.str "Type", .str "String"), (.str "AllowedValues", .list [.str "new"])] := by
    rintro n v ⟨ps, h1, h2⟩
    have := hsec _ h1
    simp only [Val.dict.injEq] at this
    subst this
    simp at h2
    exact h2.2
  refine ⟨fun v h => ⟨_, hsec v h⟩, fun n v h => ⟨_, hpar n v h⟩, fun n o v h hv _ => ?_⟩
  have := hpar _ _ h
  simp only [Val.dict.injEq] at this
  subst this
  simp at hv
  exact ⟨_, hv⟩

local macro "ranUse" : term => `(exUse_run (by simp [exTypedOne, Val.WF, Val.WFDict, Val.WFList]) ⟨rfl, _, rfl⟩ (exTypedOne_args _ _) (by decide +kernel) (by decide +kernel))

/-- a property that refers to the parameter -/
abbrev exUseParam : List (Key × Val) := [(.str "K", .dict [(.str "Ref", .str "P")])]

theorem exUse_refTexts {k f x : String} (hf : f ≠ "Fn::If") (spec : Val) : RefsAreTexts spec [(.str k, .dict [(.str f, .str x)])] := by
  intro prop decl v q y _ hv hu
  simp at hv
  obtain ⟨-, rfl⟩ := hv
  have := (propValue_single hf hu).2
  simp at this
  exact ⟨_, this.2⟩

/-- `C138_values_partial` -/
example : Val.str (valueText exUseText (.str "new")) ∈ [Val.str "new"] :=
  C138_values_partial (d := ⟨exTypedOne "T" exUseParam, []⟩) (n := 0) ranUse exUseRules_rules.values List.mem_cons_self (exUse_inForce rfl (by decide)) (exUse_followed _)
    (exUse_params _) (exUse_object _) (spec := exUseSpec) rfl exUseSpec_wf (fun q u h => ⟨_, (exUse_leaf (by decide) h).2⟩)
    (fun q l h => by cases (exUse_leaf (by decide) h).2; exact exUse_noNull (neverNull_single (by decide) _))
    (fun q l h => by cases (exUse_leaf (by decide) h).2; exact exUse_refTexts (by decide) _)
    (k := .str "R") ⟨_, at_dict_one.2 (List.mem_cons_of_mem _ List.mem_cons_self), List.mem_cons_self⟩ rfl (by decide) (by decide)
    (prop := "K") (decl := exUseK) (entry := exUseEntry) exUse_K (by decide) ⟨"V", by decide, by decide, rfl⟩ rfl (s := "new") List.mem_cons_self
    List.mem_cons_self (m := "P") (.inl rfl) (by decide) ⟨_, at_dict_one.2 List.mem_cons_self, List.mem_cons_self⟩
    ⟨"String", List.mem_cons_self, exSingleText, .inl ⟨_, List.mem_cons_of_mem _ List.mem_cons_self, List.mem_cons_self⟩⟩

/-- `C138_patterns_partial` -/
example : exUseText.matches_ "new" (valueText exUseText (.str "new")) = true :=
  C138_patterns_partial (d := ⟨exTypedOne "T" exUseParam, []⟩) (n := 0) ranUse exUseRules_rules.patterns List.mem_cons_self (exUse_inForce rfl (by decide)) (exUse_followed _)
    (exUse_params _) (exUse_object _) (spec := exUseSpec) rfl exUseSpec_wf (fun q u h => ⟨_, (exUse_leaf (by decide) h).2⟩)
    (fun q l h => by cases (exUse_leaf (by decide) h).2; exact exUse_noNull (neverNull_single (by decide) _))
    (fun q l h => by cases (exUse_leaf (by decide) h).2; exact exUse_refTexts (by decide) _)
    (k := .str "R") ⟨_, at_dict_one.2 (List.mem_cons_of_mem _ List.mem_cons_self), List.mem_cons_self⟩ rfl (by decide) (by decide)
    (prop := "K") (decl := exUseK) (entry := exUseEntry) exUse_K (by decide) ⟨"V", by decide, by decide, rfl⟩ ⟨rfl, by decide⟩
    List.mem_cons_self (m := "P") (.inl rfl) (by decide) ⟨_, at_dict_one.2 List.mem_cons_self, List.mem_cons_self⟩
    ⟨"String", List.mem_cons_self, exSingleText, .inl ⟨_, List.mem_cons_of_mem _ List.mem_cons_self, List.mem_cons_self⟩⟩

/-- `C138_secrets_partial` -/
example : ¬ (HasSecureRef (fun c => c.isDigit) "new" ∧ IsLine "new") :=
  C138_secrets_partial (d := ⟨exTypedOne "T" [(.str "K", .str "new")], []⟩) (by decide) (n := 0) ranUse exUseRules_rules.secrets List.mem_cons_self
    (exUse_inForce rfl (by decide)) (exUse_followed _) (exUse_object _) (spec := exUseSpec) rfl exUseSpec_wf (exUse_noNull (neverNull_text _ _))
    (fun prop v q h hu => by
      simp at h
      obtain ⟨-, rfl⟩ := h
      cases (propValue_str hu).2)
    (prop := "K") (pt := "String") (decl := exUseK) exUse_K ⟨_, exUse_K, .inl ⟨rfl, by decide⟩⟩ (by simp [TakesSecure])
    List.mem_cons_self (exText_value "new") (.value (fun h => absurd h.1 (by decide)))

/-- `C138_documents_partial` -/
example : (compact (.dict [(.str "a", .int 1)])).length ≤ (9 : Int).toNat :=
  C138_documents_partial (d := ⟨exTypedOne "T" [(.str "D", .dict [(.str "a", .int 1)])], []⟩) ranUse exUseRules_rules.documents List.mem_cons_self
    (exUse_inForce rfl (by decide)) (exUse_followed _) (exUse_object _) (spec := exUseSpec) rfl exUseSpec_wf (fun q u h => ⟨_, (exUse_leaf (by decide) h).2⟩)
    (fun _ => rfl)
    (fun prop decl h _ hj => by
      have := dlookup_mem (specProps_iff.2 h)
      simp [specProps, exUseSpec, Val.get?, dlookup] at this
      rcases this with ⟨rfl, rfl⟩ | ⟨rfl, rfl⟩
      · exact absurd hj.1 (by decide)
      · exact ⟨by decide, 9, hj, _, ⟨"J", by decide, by decide, rfl⟩, rfl⟩)
    (fun q l prop decl doc h _ hd => by
      cases (exUse_leaf (by decide) h).2
      simp at hd
      obtain ⟨-, rfl⟩ := hd
      intro p xs h
      cases p with
      | nil => exact absurd (at_nil.1 h) (by simp)
      | cons k p =>
        cases h with
        | key h1 h2 =>
          simp at h1
          obtain ⟨-, rfl⟩ := h1
          cases h2)
    (prop := "D") (decl := exUseD) exUse_D ⟨⟨rfl, by decide⟩, _, ⟨"J", by decide, by decide, rfl⟩, rfl⟩
    (.here (by rintro ⟨_, h⟩; simp at h) (by simp [noValue])) List.mem_cons_self (by simp [noValue])
    (.object (by
      rintro ⟨f, x, h, hf⟩
      simp at h
      obtain ⟨rfl, -⟩ := h
      exact absurd hf (by decide)) (.cons (.scalar (by simp) (by simp)) .nil))

/-- the hypotheses of E3008 on a template with one property that is a call -/
theorem exUse_readable {f : String} {x : Val} (hf : f ≠ "Fn::If") (hw : (exTypedOne "T" [(.str "K", .dict [(.str f, x)])]).WF)
    (hc : RefAttCall (exTypedOne "T" [(.str "K", .dict [(.str f, x)])]) (.dict [(.str f, x)])) :
    UsesReadable exUseRegion (exTypedOne "T" [(.str "K", .dict [(.str f, x)])]) exUseSpec [(.str "K", .dict [(.str f, x)])] where
  sections := by
    refine ⟨hw, ⟨_, rfl, ?_⟩, ?_⟩
    · intro sec hsec s hs
      simp at hs
      rcases hs with ⟨-, rfl⟩ | ⟨-, rfl⟩
      · refine ⟨_, rfl, fun k e h => ?_⟩
        simp at h
        exact ⟨_, h.2⟩
      · refine ⟨_, rfl, fun k e h => ?_⟩
        simp at h
        exact ⟨_, h.2⟩
    · rintro nm e ⟨tt, kvs, h1, h2, h3⟩
      simp only [exTypedOne, Val.dict.injEq] at h1
      subst h1
      simp at h2
      subst h2
      simp at h3
      obtain ⟨-, rfl⟩ := h3
      exact ⟨"T", List.mem_cons_self⟩
  specWf := exUseSpec_wf
  entries := by
    intro n e h
    have := dlookup_mem h
    simp [exUseRegion] at this
    rcases this with ⟨-, rfl⟩ | ⟨-, rfl⟩ <;> simp [exUseEntry, Val.WF, Val.WFDict, Val.WFList]
  noIf := by
    intro decl h
    have := dlookup_mem (specProps_iff.2 h)
    simp [specProps, exUseSpec, Val.get?, dlookup] at this
  objects := fun q u h => ⟨_, (exUse_leaf (by decide) h).2⟩
  noNull := fun q l h => by cases (exUse_leaf (by decide) h).2; exact exUse_noNull (neverNull_single hf _)
  calls := by
    intro o l prop decl v q u h _ hv hu
    cases (exUse_leaf (by decide) h).2
    simp at hv
    obtain ⟨-, rfl⟩ := hv
    cases (propValue_single hf hu).2
    exact hc

theorem exUse_value : HasValue exUseK := ⟨_, rfl, rfl⟩

theorem exUse_entry (v : Val) (q : Path) : EntryFor exUseRegion exUseK v q exUseEntry :=
  .inr ⟨fun h => absurd h.1.1 (by decide), "V", by decide, by decide, rfl⟩

/-- `C138_parameters_partial` -/
example : ∃ pty, (Key.str "Type", Val.str pty) ∈ [(Key.str "Type", Val.str "String"), (.str "AllowedValues", .list [.str "new"])] ∧
    AllowsParameter exUseParams exUseEntry pty :=
  C138_parameters_partial (d := ⟨exTypedOne "T" exUseParam, []⟩) (n := 0) ranUse exUseRules_rules.uses List.mem_cons_self (exUse_inForce rfl (by decide)) (exUse_followed _)
    (exUse_object _) (spec := exUseSpec) rfl (exUse_readable (by decide) (by simp [exTypedOne, Val.WF, Val.WFDict, Val.WFList])
      ⟨fun a e => by simp at e; exact ⟨_, e.symm⟩, fun a e => by simp at e⟩)
    (prop := "K") (decl := exUseK) exUse_K exUse_value (.here (by rintro ⟨_, h⟩; simp at h) (by simp [noValue])) List.mem_cons_self
    (propValue_call (by decide) (by simp [noValue])) (exUse_entry _ _) rfl ⟨_, _, rfl, List.mem_cons_self, List.mem_cons_self⟩

/-- `C138_resources_partial` -/
example : ∃ rty, (Key.str "Type", Val.str rty) ∈ [(Key.str "Type", Val.str "T"), (.str "Properties", .dict [(.str "K", .dict [(.str "Ref", .str "R")])])] ∧
    AllowsResource exUseEntry rty :=
  C138_resources_partial (d := ⟨exTypedOne "T" [(.str "K", .dict [(.str "Ref", .str "R")])], []⟩) (n := 0) ranUse exUseRules_rules.uses List.mem_cons_self
    (exUse_inForce rfl (by decide)) (exUse_followed _)
    (exUse_object _) (spec := exUseSpec) rfl (exUse_readable (by decide) (by simp [exTypedOne, Val.WF, Val.WFDict, Val.WFList])
      ⟨fun a e => by simp at e; exact ⟨_, e.symm⟩, fun a e => by simp at e⟩)
    (prop := "K") (decl := exUseK) exUse_K exUse_value (.here (by rintro ⟨_, h⟩; simp at h) (by simp [noValue])) List.mem_cons_self
    (propValue_call (by decide) (by simp [noValue])) (exUse_entry _ _) rfl ⟨_, _, rfl, List.mem_cons_of_mem _ List.mem_cons_self, List.mem_cons_self⟩

/-- `C138_attributes_partial` -/
example : (StackOutput "T" "Arn" ∧ ¬ (SaysText exUseK "Type" "List" ∧ ∃ u, Leaf (.dict [(.str "Fn::GetAtt", .list [.str "R", .str "Arn"])]) [] u)) ∨
    (¬ StackOutput "T" "Arn" ∧ AllowsAttribute exUseEntry "T" "Arn") :=
  C138_attributes_partial (d := ⟨exTypedOne "T" [(.str "K", .dict [(.str "Fn::GetAtt", .list [.str "R", .str "Arn"])])], []⟩) (n := 0) ranUse exUseRules_rules.uses
    List.mem_cons_self (exUse_inForce rfl (by decide)) (exUse_followed _)
    (exUse_object _) (spec := exUseSpec) rfl (exUse_readable (by decide) (by simp [exTypedOne, Val.WF, Val.WFDict, Val.WFList])
      ⟨fun a e => by simp at e, fun a e => by
        simp at e
        subst e
        exact ⟨_, _, _, .pair, _, _, rfl, List.mem_cons_of_mem _ List.mem_cons_self, List.mem_cons_self⟩⟩)
    (prop := "K") (decl := exUseK) exUse_K exUse_value (.here (by rintro ⟨_, h⟩; simp at h) (by simp [noValue])) List.mem_cons_self
    (propValue_call (by decide) (by simp [noValue])) (exUse_entry _ _) rfl .pair ⟨_, _, rfl, List.mem_cons_of_mem _ List.mem_cons_self, List.mem_cons_self⟩
    List.mem_cons_self (by
      rintro (h | ⟨s, h⟩)
      · simp at h
      · have := congrArg (fun x => x.toList.length) h
        simp at this)

/-- `C138_refs_read`, `C138_attributes_read`, `C138_governed` and `C138_documents_read` -/
example : AllowsParameter exUseParams exUseEntry "String" ∧ AllowsAttribute exUseEntry "S" "Name" ∧ ("D", some 9) ∈ jsonRows exUseRegion exUseSpec ∧
    Governs (refAttRowView exUseRegion exUseParams exUseK) .none [] (refAttTypeView exUseParams exUseEntry) :=
  ⟨⟨_, "Texts", _, rfl, List.mem_cons_self, rfl, List.mem_cons_self⟩, .inr rfl, by decide, C138_governed (exUse_entry _ _)⟩

end CfnLint
