import Verif.Props.SpecRules
import Verif.Props.BoundsClosed
/-
Property C128, on the specification itself: what the rules of the specification take for the declarations is what stands in the JSON.
-/
namespace CfnLint

open Spec

namespace Spec

/-- the object has a text that is not empty under the name -/
def SaysText (v : Val) (name s : String) : Prop := look v [.str name] = some (.str s) ∧ s ≠ ""

/-- the declaration of a property of a type -/
def PropertyIn (spec : Val) (prop : Key) (v : Val) : Prop := look spec [.str "Properties", prop] = some v

/-- the property, or its items or entries, are declared to be of a primitive type -/
def DeclaresPrimitive (spec : Val) (prop ty : String) : Prop :=
  ∃ v, PropertyIn spec (.str prop) v ∧ (SaysText v "PrimitiveType" ty ∨ (∀ s, ¬ SaysText v "PrimitiveType" s) ∧ SaysText v "PrimitiveItemType" ty)

/-- the entry of `ValueTypes` that the declaration of a property names -/
def NamesEntry (R : RegionSpec) (v entry : Val) : Prop :=
  ∃ n, look v [.str "Value", .str "ValueType"] = some (.str n) ∧ n ≠ "" ∧ dlookup n R.valueTypes = some entry

/-- what an entry of `ValueTypes` says -/
structure EntrySays (entry : Val) (vt : ValueType) : Prop where
  allowed : ∀ s, s ∈ vt.allowed ↔ ∃ xs, look entry [.str "AllowedValues"] = some (.list xs) ∧ .str s ∈ xs
  pattern : ∀ s, vt.pattern = s ∧ s ≠ "" ↔ SaysText entry "AllowedPatternRegex" s
  stringMin : ∀ i, vt.stringMin = some i ↔ look entry [.str "StringMin"] = some (.int i)
  stringMax : ∀ i, vt.stringMax = some i ↔ look entry [.str "StringMax"] = some (.int i)
  numberMin : ∀ v, vt.numberMin = some v ↔ look entry [.str "NumberMin"] = some v ∧ v ≠ .none
  numberMax : ∀ v, vt.numberMax = some v ↔ look entry [.str "NumberMax"] = some v ∧ v ≠ .none

end Spec

theorem get_look {v : Val} {k : String} : v.get? k = look v [.str k] := by
  cases v with
  | dict kvs =>
    cases e : dlookup (Key.str k) kvs <;> simp [Val.get?, look, e]
  | _ => simp [Val.get?, look]

theorem specText_iff {v : Val} {k s : String} : specText k v = some s ↔ SaysText v k s := by
  unfold specText SaysText
  rw [get_look]
  split
  · rename_i w hw
    rw [hw]
    split
    · rename_i h0
      constructor
      · intro h; cases h
      · rintro ⟨h1, h2⟩
        cases h1
        exact absurd h0 h2
    · rename_i h0
      constructor
      · intro h
        cases h
        exact ⟨rfl, h0⟩
      · rintro ⟨h1, -⟩
        cases h1
        rfl
  · rename_i hn
    constructor
    · intro h; cases h
    · rintro ⟨h1, -⟩
      exact absurd h1 (hn s)

theorem specText_none {v : Val} {k : String} : specText k v = none ↔ ∀ s, ¬ SaysText v k s := by
  constructor
  · intro h s hs
    rw [specText_iff.2 hs] at h
    cases h
  · intro h
    cases e : specText k v with
    | none => rfl
    | some s => exact absurd (specText_iff.1 e) (h s)

theorem specProps_iff {spec : Val} {k : Key} {v : Val} : dlookup k (specProps spec) = some v ↔ PropertyIn spec k v := by
  unfold specProps PropertyIn
  rw [get_look]
  cases spec with
  | dict kvs =>
    rw [look_cons]
    split
    · rename_i ps h
      rw [look_key] at h
      constructor
      · intro hv
        exact ⟨_, h, look_key.2 hv⟩
      · rintro ⟨w, hw, hv⟩
        rw [h] at hw
        cases hw
        exact look_key.1 hv
    · rename_i hn
      constructor
      · intro h; cases h
      · rintro ⟨w, hw, hv⟩
        cases w with
        | dict ps => exact absurd (look_key.2 hw) (hn ps)
        | _ => simp [look] at hv
  | _ => simp [look, dlookup]


theorem specProps_nodup {spec : Val} (hw : spec.WF) : ((specProps spec).map Prod.fst).Nodup := by
  unfold specProps
  split
  · rename_i ps h
    cases spec with
    | dict kvs =>
      have hm := dlookup_mem (h : dlookup (Key.str "Properties") kvs = some (.dict ps))
      have := at_wf (at_dict_one.2 hm) hw
      rw [Val.WF] at this
      exact this.1
    | _ => simp [Val.get?] at h
  · simp

/-- the rows are the properties of the declaration -/
theorem specRows_iff {ρ : Type} {view : Val → ρ} {spec : Val} (hw : spec.WF) {prop : String} {d : ρ} :
    (prop, d) ∈ specRows view spec ↔ ∃ v, PropertyIn spec (.str prop) v ∧ d = view v := by
  unfold specRows
  rw [List.mem_filterMap]
  constructor
  · rintro ⟨⟨k, v⟩, hm, h⟩
    cases k with
    | str s =>
      cases h
      exact ⟨v, specProps_iff.1 (dlookup_of_mem (specProps_nodup hw) hm), rfl⟩
    | int i => cases h
  · rintro ⟨v, hv, rfl⟩
    exact ⟨(.str prop, v), dlookup_mem (specProps_iff.2 hv), rfl⟩

theorem specRows_nodup {ρ : Type} {view : Val → ρ} {spec : Val} (hw : spec.WF) : ((specRows view spec).map Prod.fst).Nodup := by
  unfold specRows
  have hn := specProps_nodup hw
  revert hn
  generalize specProps spec = l
  induction l with
  | nil => intro _; simp
  | cons a l ih =>
    obtain ⟨k, v⟩ := a
    intro hn
    rw [List.map_cons, List.nodup_cons] at hn
    cases k with
    | int i => exact ih hn.2
    | str s =>
      rw [List.filterMap_cons]
      simp only [List.map_cons, List.nodup_cons]
      refine ⟨?_, ih hn.2⟩
      intro hc
      obtain ⟨⟨s', d⟩, h1, rfl⟩ := List.mem_map.1 hc
      obtain ⟨⟨k', w⟩, h2, h3⟩ := List.mem_filterMap.1 h1
      cases k' with
      | int i => cases h3
      | str s'' =>
        cases h3
        exact hn.1 (List.mem_map.2 ⟨_, h2, rfl⟩)

/-- **C128** What E3012 takes for the primitive type of a property is what the specification declares. -/
theorem C128_declared {spec : Val} (hw : spec.WF) {prop ty : String} :
    (∃ d, (prop, d) ∈ specRows rowView spec ∧ PrimOf d ty) ↔ DeclaresPrimitive spec prop ty := by
  constructor
  · rintro ⟨d, hm, hne, h⟩
    obtain ⟨v, hv, rfl⟩ := (specRows_iff hw).1 hm
    refine ⟨v, hv, ?_⟩
    rcases h with h | ⟨h1 | h1, h2⟩
    · exact .inl (specText_iff.1 h)
    · exact .inr ⟨specText_none.1 h1, specText_iff.1 h2⟩
    · exact absurd rfl (specText_iff.1 h1).2
  · rintro ⟨v, hv, h⟩
    refine ⟨_, (specRows_iff hw).2 ⟨v, hv, rfl⟩, ?_⟩
    rcases h with h | ⟨h1, h2⟩
    · exact ⟨h.2, .inl (specText_iff.2 h)⟩
    · exact ⟨h2.2, .inr ⟨.inl (specText_none.2 h1), specText_iff.2 h2⟩⟩

theorem intAt_iff {v : Val} {k : String} {i : Int} :
    (match v.get? k with | some (.int i) => some i | _ => none) = some i ↔ look v [.str k] = some (.int i) := by
  rw [get_look]
  split
  · rename_i j h
    rw [h]
    simp
  · rename_i hn
    constructor
    · intro h; cases h
    · intro h; exact absurd h (hn i)

theorem valueAt_iff {v : Val} {k : String} {w : Val} :
    (match v.get? k with | some .none => none | x => x) = some w ↔ look v [.str k] = some w ∧ w ≠ .none := by
  rw [get_look]
  split
  · rename_i h
    rw [h]
    constructor
    · intro h; cases h
    · rintro ⟨h1, h2⟩
      cases h1
      exact absurd rfl h2
  · rename_i x hn
    constructor
    · intro h
      exact ⟨h, fun e => hn (by rw [h, e])⟩
    · exact fun h => h.1

/-- **C128** What the rules take for an entry of `ValueTypes` is what the entry says. -/
theorem C128_entry (entry : Val) : EntrySays entry (valueTypeView entry) where
  allowed := by
    intro s
    unfold valueTypeView
    dsimp only
    rw [get_look]
    split
    · rename_i xs h
      rw [h]
      unfold textsOf
      rw [List.mem_filterMap]
      constructor
      · rintro ⟨a, ha, he⟩
        refine ⟨xs, rfl, ?_⟩
        cases a with
        | str s' => cases he; exact ha
        | _ => cases he
      · rintro ⟨ys, e, hm⟩
        cases e
        exact ⟨_, hm, rfl⟩
    · rename_i hn
      constructor
      · intro h; cases h
      · rintro ⟨xs, h, -⟩
        exact absurd h (hn xs)
  pattern := by
    intro s
    unfold valueTypeView
    dsimp only
    cases e : specText "AllowedPatternRegex" entry with
    | none =>
      constructor
      · rintro ⟨h, hne⟩
        exact absurd h.symm hne
      · intro h
        exact absurd h (specText_none.1 e s)
    | some r =>
      have hr := specText_iff.1 e
      constructor
      · rintro ⟨h, hne⟩
        cases (h : r = s)
        exact hr
      · intro h
        rw [specText_iff.2 h] at e
        cases e
        exact ⟨rfl, h.2⟩
  stringMin := fun _ => intAt_iff
  stringMax := fun _ => intAt_iff
  numberMin := fun _ => valueAt_iff
  numberMax := fun _ => valueAt_iff

/-- **C128** The entry the rules take for a property is the one its declaration names. -/
theorem C128_named {R : RegionSpec} {v : Val} {vt : ValueType} :
    (valueRowView R v).valueType = some vt ↔ ∃ entry, NamesEntry R v entry ∧ vt = valueTypeView entry := by
  unfold valueRowView NamesEntry
  dsimp only
  rw [get_look]
  have hl : ∀ n, look v [.str "Value", .str "ValueType"] = some (.str n) ↔ ∃ w, look v [.str "Value"] = some w ∧ look w [.str "ValueType"] = some (.str n) := by
    intro n
    cases v with
    | dict kvs => rw [look_cons]; simp only [look_key]
    | _ => simp [look]
  split
  · rename_i w hw
    rw [Option.bind_eq_some_iff]
    constructor
    · rintro ⟨n, hn, h⟩
      obtain ⟨entry, he, rfl⟩ := Option.map_eq_some_iff.1 h
      obtain ⟨h1, h2⟩ := specText_iff.1 hn
      exact ⟨entry, ⟨n, (hl n).2 ⟨w, hw, h1⟩, h2, he⟩, rfl⟩
    · rintro ⟨entry, ⟨n, h1, h2, h3⟩, rfl⟩
      obtain ⟨w', hw', h1'⟩ := (hl n).1 h1
      rw [hw] at hw'
      cases hw'
      exact ⟨n, specText_iff.2 ⟨h1', h2⟩, by rw [h3]; rfl⟩
  · rename_i hn
    constructor
    · intro h; cases h
    · rintro ⟨entry, ⟨n, h1, -, -⟩, -⟩
      obtain ⟨w', hw', -⟩ := (hl n).1 h1
      rw [hw'] at hn
      cases hn

/-- **C128** The types the traversal follows are those of the specification. -/
theorem C128_types {U : RegionSpec} {rt t : String} {d : TypeDecl} : typeOf (traversed U) rt t = some d ↔
    ∃ spec, dlookup (registeredName rt t) U.propertyTypes = some spec ∧ (∀ s, d.type = some s ↔ SaysText spec "Type" s) ∧
      (∀ s, d.itemType = some s ↔ SaysText spec "ItemType" s) ∧ d.properties = (specProps spec).map (fun p => (p.1, declView p.2)) := by
  have hm : ∀ (l : List (String × Val)) k, dlookup k (l.map (fun kv => (kv.1, (⟨(specProps kv.2).map (fun p => (p.1, declView p.2)),
      specText "Type" kv.2, specText "ItemType" kv.2⟩ : TypeDecl)))) = (dlookup k l).map (fun v => ⟨(specProps v).map (fun p => (p.1, declView p.2)),
      specText "Type" v, specText "ItemType" v⟩) := by
    intro l k
    induction l with
    | nil => rfl
    | cons a l ih =>
      simp only [List.map_cons, dlookup]
      split
      · rfl
      · exact ih
  unfold typeOf traversed registeredName
  dsimp only
  rw [hm, Option.map_eq_some_iff]
  constructor
  · rintro ⟨spec, h, rfl⟩
    exact ⟨spec, h, fun s => specText_iff, fun s => specText_iff, rfl⟩
  · rintro ⟨spec, h, h1, h2, h3⟩
    refine ⟨spec, h, ?_⟩
    obtain ⟨ps, ty, it⟩ := d
    have e1 : specText "Type" spec = ty := Option.ext fun s => specText_iff.trans (h1 s).symm
    have e2 : specText "ItemType" spec = it := Option.ext fun s => specText_iff.trans (h2 s).symm
    rw [e1, e2, ← h3]

/-- **C128** … and so are the properties it follows. -/
theorem C128_followed {spec : Val} {k : Key} {d : PropDecl} : dlookup k ((specProps spec).map (fun p => (p.1, declView p.2))) = some d ↔
    ∃ v, PropertyIn spec k v ∧ (∀ s, d.type = some s ↔ SaysText v "Type" s) ∧ ∀ s, d.itemType = some s ↔ SaysText v "ItemType" s := by
  have hm : ∀ (l : List (Key × Val)), dlookup k (l.map (fun p => (p.1, declView p.2))) = (dlookup k l).map declView := by
    intro l
    induction l with
    | nil => rfl
    | cons a l ih =>
      simp only [List.map_cons, dlookup]
      split
      · rfl
      · exact ih
  rw [hm, Option.map_eq_some_iff]
  constructor
  · rintro ⟨v, h, rfl⟩
    exact ⟨v, specProps_iff.1 h, fun s => specText_iff, fun s => specText_iff⟩
  · rintro ⟨v, h, h1, h2⟩
    refine ⟨v, specProps_iff.2 h, ?_⟩
    obtain ⟨ty, it⟩ := d
    have e1 : specText "Type" v = ty := Option.ext fun s => specText_iff.trans (h1 s).symm
    have e2 : specText "ItemType" v = it := Option.ext fun s => specText_iff.trans (h2 s).symm
    rw [declView, e1, e2]


/-- **C128** … and the resource types. -/
theorem C128_resources {U : RegionSpec} {rt : String} {ps : List (Key × PropDecl)} : dlookup rt (traversed U).resourceTypes = some ps ↔
    ∃ spec, dlookup rt U.resourceTypes = some spec ∧ ps = (specProps spec).map (fun p => (p.1, declView p.2)) := by
  have hm : ∀ (l : List (String × Val)), dlookup rt (l.map (fun kv => (kv.1, (specProps kv.2).map (fun p => (p.1, declView p.2))))) =
      (dlookup rt l).map (fun v => (specProps v).map (fun p => (p.1, declView p.2))) := by
    intro l
    induction l with
    | nil => rfl
    | cons a l ih =>
      simp only [List.map_cons, dlookup]
      split
      · rfl
      · exact ih
  unfold traversed
  dsimp only
  rw [hm, Option.map_eq_some_iff]
  exact ⟨fun ⟨spec, h, e⟩ => ⟨spec, h, e.symm⟩, fun ⟨spec, h, e⟩ => ⟨spec, h, e.symm⟩⟩

section Clean

variable {objs : List RuleObj} {args : Sources} {all : List String} {regions : List Val} {beh : RuleObj → Behaviour}
  {name : Val → String} {mark : Val → MVal} {print : List Match → PyM Unit} {ds : List Decoded} {U R : RegionSpec}

/-- no property that the specification declares is null -/
def Spec.NoNullDeclared (spec : Val) (kvs : List (Key × Val)) : Prop :=
  ∀ prop decl v, PropertyIn spec (.str prop) decl → (Key.str prop, v) ∈ kvs → v ≠ .none ∧ ∀ q, ¬ Leaf v q .none

theorem noNull_rows {ρ : Type} {view : Val → ρ} {spec : Val} (hw : spec.WF) {kvs : List (Key × Val)} (h : NoNullDeclared spec kvs) :
    NoNullProps (specRows view spec) kvs := by
  intro prop d v hm hv
  obtain ⟨decl, hp, -⟩ := (specRows_iff hw).1 hm
  exact h prop decl v hp hv

/-- **C128** If the command ends with status 0 and E3012 is in force, the values of a property for which the specification declares a primitive type,
and no map, are of that type, or read as such. Missing: truth values and fractions where numbers are declared, nulls. -/
theorem C128_typed_partial {floatText : String → Bool} {strict : Bool} {n : Nat} {msg : Path → String}
    (h : CleanRun objs args all regions (traversed U) beh name mark print ds)
    (hbeh : ∀ r, r.info.id = "E3012" → beh r = primitivesOf R floatText strict (n + 2) msg)
    {d : Decoded} (hd : d ∈ ds) (hf : InForce objs args d.template { id := "E3012" }) (hfo : FollowedIn U d.template)
    {top : Bool} {ty : String} {p : Path} {kvs : List (Key × Val)} (ho : TypedObject U d.template top ty p kvs)
    {spec : Val} (hs : DeclaredIn R top ty spec) (hw : spec.WF) (hnull : NoNullDeclared spec kvs)
    (hplain : ∀ prop pt b v q u, DeclaresPrimitive spec prop pt → IsStrict strict ty prop b → (Key.str prop, v) ∈ kvs → PropValue v q u → PlainValue b pt u)
    {prop pt : String} {b : Bool} (hp : DeclaresPrimitive spec prop pt) (hm : ∀ decl, PropertyIn spec (.str prop) decl → ¬ SaysText decl "Type" "Map")
    (hb : IsStrict strict ty prop b) {v u : Val} (hv : (Key.str prop, v) ∈ kvs) {q : Path} (hu : PropValue v q u) (hk : Known u) (ho' : ∀ l, u ≠ .dict l) :
    Fits floatText b pt u := by
  have hn := C128_primitives_partial h hbeh hd hf hfo ho hs (specRows_nodup hw) (noNull_rows hw hnull)
    (fun prop d pt b v q u h1 h2 => hplain prop pt b v q u ((C128_declared hw).1 ⟨d, h1, h2⟩))
  by_contra hc
  obtain ⟨row, h1, h2⟩ := (C128_declared hw).2 hp
  obtain ⟨decl, h3, rfl⟩ := (specRows_iff hw).1 h1
  exact hn _ ⟨prop, _, pt, b, v, q, u, [], h1, h2, hb, hv, hu, hk, .value (fun e => hm decl h3 (specText_iff.1 e)) ho' hc, rfl⟩

/-- **C128** … and E3030 is in force, the text of a value is one of those that the specification allows for the property. Missing: choices between
values that are no objects, nulls. -/
theorem C128_listed_partial {E : PyText} {n : Nat} {msg : Path → String}
    (h : CleanRun objs args all regions (traversed U) beh name mark print ds)
    (hbeh : ∀ r, r.info.id = "E3030" → beh r = allowedOf R E (n + 2) msg)
    {d : Decoded} (hd : d ∈ ds) (hf : InForce objs args d.template { id := "E3030" }) (hfo : FollowedIn U d.template)
    {top : Bool} {ty : String} {p : Path} {kvs : List (Key × Val)} (ho : TypedObject U d.template top ty p kvs)
    {spec : Val} (hs : DeclaredIn R top ty spec) (hw : spec.WF) (hobj : ∀ q u, Leaf (.dict kvs) q u → ∃ l, u = .dict l)
    (hnull : ∀ q l, Leaf (.dict kvs) q (.dict l) → NoNullDeclared spec l)
    {prop : String} {decl entry : Val} {xs : List Val} (hp : PropertyIn spec (.str prop) decl) (he : NamesEntry R decl entry)
    (ha : look entry [.str "AllowedValues"] = some (.list xs)) {s : String} (hx : .str s ∈ xs)
    {q0 : Path} {l : List (Key × Val)} (hl : Leaf (.dict kvs) q0 (.dict l)) {v u : Val} (hv : (Key.str prop, v) ∈ l) {q : Path} (hu : PropValue v q u)
    (hk : Known u) (hr : ¬ HasResolve (valueText E u)) : .str (valueText E u) ∈ xs := by
  have hn := C128_allowed_partial h hbeh hd hf hfo ho hs (specRows_nodup hw) hobj (fun q l hq => noNull_rows hw (hnull q l hq))
  by_contra hc
  have hvt := C128_named.2 ⟨entry, he, rfl⟩
  refine hn _ ⟨q0, l, _, hl, ⟨prop, _, v, q, u, (specRows_iff hw).2 ⟨decl, hp, rfl⟩, hv, hu, hk, ⟨_, hvt, ?_, hr, ?_⟩, rfl⟩, rfl⟩
  · intro e
    have := ((C128_entry entry).allowed s).2 ⟨xs, ha, hx⟩
    rw [e] at this
    cases this
  · intro hm
    obtain ⟨ys, h1, h2⟩ := ((C128_entry entry).allowed _).1 hm
    rw [ha] at h1
    cases h1
    exact hc h2

/-- **C128** … and E3031 is in force, the text of a value matches the expression of the property. Missing: choices between values that are no objects, nulls. -/
theorem C128_matched_partial {E : PyText} {n : Nat} {msg : Path → String}
    (h : CleanRun objs args all regions (traversed U) beh name mark print ds)
    (hbeh : ∀ r, r.info.id = "E3031" → beh r = patternsFor R E (n + 2) msg)
    {d : Decoded} (hd : d ∈ ds) (hf : InForce objs args d.template { id := "E3031" }) (hfo : FollowedIn U d.template)
    {top : Bool} {ty : String} {p : Path} {kvs : List (Key × Val)} (ho : TypedObject U d.template top ty p kvs)
    {spec : Val} (hs : DeclaredIn R top ty spec) (hw : spec.WF) (hobj : ∀ q u, Leaf (.dict kvs) q u → ∃ l, u = .dict l)
    (hnull : ∀ q l, Leaf (.dict kvs) q (.dict l) → NoNullDeclared spec l)
    {prop : String} {decl entry : Val} {re : String} (hp : PropertyIn spec (.str prop) decl) (he : NamesEntry R decl entry)
    (ha : SaysText entry "AllowedPatternRegex" re)
    {q0 : Path} {l : List (Key × Val)} (hl : Leaf (.dict kvs) q0 (.dict l)) {v u : Val} (hv : (Key.str prop, v) ∈ l) {q : Path} (hu : PropValue v q u)
    (hk : Known u) (hsc : Scalar u) (hr : ¬ HasResolve (valueText E u)) : E.matches_ re (valueText E u) = true := by
  have hn := C128_patterns_partial h hbeh hd hf hfo ho hs (specRows_nodup hw) hobj (fun q l hq => noNull_rows hw (hnull q l hq))
  by_contra hc
  have hvt := C128_named.2 ⟨entry, he, rfl⟩
  obtain ⟨e, hne⟩ := ((C128_entry entry).pattern re).2 ha
  refine hn _ ⟨q0, l, _, hl, ⟨prop, _, v, q, u, (specRows_iff hw).2 ⟨decl, hp, rfl⟩, hv, hu, hk, ⟨_, hvt, ?_, hsc, hr, ?_⟩, rfl⟩, rfl⟩
  · rw [e]; exact hne
  · rw [e]; simpa using hc

/-- **C128** … and E3033 is in force, a text is as long as the specification wants it. Missing: objects under a condition, nulls, bounds of 0. -/
theorem C128_sized_partial {n : Nat} {msg : Path → String}
    (h : CleanRun objs args all regions (traversed U) beh name mark print ds)
    (hbeh : ∀ r, r.info.id = "E3033" → beh r = lengthsOf R (n + 2) msg)
    {d : Decoded} (hd : d ∈ ds) (hf : InForce objs args d.template { id := "E3033" }) (hfo : FollowedIn U d.template)
    {top : Bool} {ty : String} {p : Path} {kvs : List (Key × Val)} (ho : TypedObject U d.template top ty p kvs)
    {spec : Val} (hs : DeclaredIn R top ty spec) (hw : spec.WF) (hif : ¬ IsIf (.dict kvs)) (hno : Val.dict kvs ≠ noValue) (hnull : NoNullDeclared spec kvs)
    (hzero : ∀ prop decl entry, PropertyIn spec (.str prop) decl → NamesEntry R decl entry →
      look entry [.str "StringMin"] ≠ some (.int 0) ∧ look entry [.str "StringMax"] ≠ some (.int 0))
    {prop : String} {decl entry : Val} {lo hi : Int} (hp : PropertyIn spec (.str prop) decl) (he : NamesEntry R decl entry)
    (hlo : look entry [.str "StringMin"] = some (.int lo)) (hhi : look entry [.str "StringMax"] = some (.int hi))
    (ht : SaysText decl "Type" "List" ∧ SaysText decl "PrimitiveItemType" "String" ∨ ¬ SaysText decl "Type" "List" ∧ SaysText decl "PrimitiveType" "String")
    {v : Val} {s : String} (hv : (Key.str prop, v) ∈ kvs) {q : Path} (hu : PropValue v q (.str s)) : lo ≤ s.length ∧ s.length ≤ hi := by
  have hn := C128_lengths_partial h hbeh hd hf hfo ho hs (specRows_nodup hw) hif (noNull_rows hw hnull) (fun prop d vt h1 h2 => by
    obtain ⟨decl, h3, rfl⟩ := (specRows_iff hw).1 h1
    obtain ⟨entry, h4, rfl⟩ := C128_named.1 h2
    obtain ⟨h5, h6⟩ := hzero prop decl entry h3 h4
    exact ⟨fun e => h5 (((C128_entry entry).stringMin 0).1 e), fun e => h6 (((C128_entry entry).stringMax 0).1 e)⟩)
  by_contra hc
  have hvt := C128_named.2 ⟨entry, he, rfl⟩
  have hk : Known (.str s) := fun f a e => by cases e
  refine hn _ ⟨[], kvs, _, .here hif hno, ⟨prop, _, v, q, .str s, (specRows_iff hw).2 ⟨decl, hp, rfl⟩, hv, hu, hk,
    ⟨_, lo, hi, s, hvt, ((C128_entry entry).stringMin lo).2 hlo, ((C128_entry entry).stringMax hi).2 hhi, ?_, rfl, ?_⟩, rfl⟩, rfl⟩
  · rcases ht with ⟨h1, h2⟩ | ⟨h1, h2⟩
    · exact .inl ⟨specText_iff.2 h1, specText_iff.2 h2⟩
    · exact .inr ⟨fun e => h1 (specText_iff.1 e), specText_iff.2 h2⟩
  · omega

/-- **C128** … and E3034 is in force, a number is between the bounds of the specification. Missing: objects under a condition, nulls. -/
theorem C128_bounded_partial {E : PyText} {n : Nat} {msg : Path → String}
    (h : CleanRun objs args all regions (traversed U) beh name mark print ds)
    (hbeh : ∀ r, r.info.id = "E3034" → beh r = numbersOf R E (n + 2) msg)
    {d : Decoded} (hd : d ∈ ds) (hf : InForce objs args d.template { id := "E3034" }) (hfo : FollowedIn U d.template)
    {top : Bool} {ty : String} {p : Path} {kvs : List (Key × Val)} (ho : TypedObject U d.template top ty p kvs)
    {spec : Val} (hs : DeclaredIn R top ty spec) (hw : spec.WF) (hif : ¬ IsIf (.dict kvs)) (hno : Val.dict kvs ≠ noValue) (hnull : NoNullDeclared spec kvs)
    {prop pt : String} {decl entry lo hi : Val} (hp : PropertyIn spec (.str prop) decl) (he : NamesEntry R decl entry)
    (hlo : look entry [.str "NumberMin"] = some lo ∧ lo ≠ .none) (hhi : look entry [.str "NumberMax"] = some hi ∧ hi ≠ .none)
    (ht : SaysText decl "PrimitiveType" pt) (hpt : pt ∈ ["String", "Integer", "Long", "Double"])
    {v u : Val} (hv : (Key.str prop, v) ∈ kvs) {q : Path} (hu : PropValue v q u) (hk : Known u) :
    (∀ s, u = .str s → ∃ x, NumberIn E u x) ∧ ∀ x, NumberIn E u x → E.le lo x = true ∧ E.le x hi = true := by
  have hn := C128_numbers_partial h hbeh hd hf hfo ho hs (specRows_nodup hw) hif (noNull_rows hw hnull)
  have hvt := C128_named.2 ⟨entry, he, rfl⟩
  have hbad : ¬ BadNumberValue E (valueRowView R decl) u := fun hc =>
    hn _ ⟨[], kvs, _, .here hif hno, ⟨prop, _, v, q, u, (specRows_iff hw).2 ⟨decl, hp, rfl⟩, hv, hu, hk, hc, rfl⟩, rfl⟩
  constructor
  · intro s e
    by_contra hc
    exact hbad ⟨_, lo, hi, pt, hvt, ((C128_entry entry).numberMin lo).2 hlo, ((C128_entry entry).numberMax hi).2 hhi, specText_iff.2 ht, hpt,
      .inl ⟨s, e, fun x hx => hc ⟨x, hx⟩⟩⟩
  · intro x hx
    by_contra hc
    exact hbad ⟨_, lo, hi, pt, hvt, ((C128_entry entry).numberMin lo).2 hlo, ((C128_entry entry).numberMax hi).2 hhi, specText_iff.2 ht, hpt,
      .inr ⟨x, hx, hc⟩⟩

end Clean

/-! ### the hypotheses are met -/

/-- the declaration of the object of the example -/
def exDeclaration : Val := .dict [(.str "Required", .bool true), (.str "PrimitiveType", .str "String"), (.str "Value", .dict [(.str "ValueType", .str "V")])]

/-- the type with the declaration -/
def exDeclared : Val := .dict [(.str "Properties", .dict [(.str "K", exDeclaration)])]

/-- the entry that it names -/
def exEntry : Val := .dict [(.str "AllowedValues", .list [.str "a", .str "b"]), (.str "AllowedPatternRegex", .str "a|b"),
    (.str "StringMin", .int 1), (.str "StringMax", .int 3), (.str "NumberMin", .int 1), (.str "NumberMax", .int 3)]

theorem exDeclared_wf : exDeclared.WF := by simp [exDeclared, exDeclaration, Val.WF, Val.WFDict]

theorem exDeclared_in : DeclaredIn exRegion false "T.P" exDeclared := by unfold DeclaredIn; decide

theorem exDeclared_property : PropertyIn exDeclared (.str "K") exDeclaration := by unfold PropertyIn; decide

theorem exDeclared_names : NamesEntry exRegion exDeclaration exEntry := ⟨"V", by decide, by decide, by decide⟩

theorem exDeclared_run {id : String} (hid : ∃ cs, id.toList = 'E' :: cs) {b : Behaviour} (hb : ∀ t, b.setUp t = .ok ()) {s : String}
    (ha : setTemplateArgs (exOneS (exK (.str s))) = .ok []) (hd : getDirectives (markAll default (exOneS (exK (.str s)))) = .ok [])
    (h : exStatus id b (exK (.str s)) = 0) :
    CleanRun [{ info := { id := id } }] (c50Args [] false []) [] [] (traversed exRegion) (fun _ => b)
      (fun _ => "t") (markAll default) (fun _ => .ok ()) [⟨exOneS (exK (.str s)), []⟩] :=
  oneRule_clean hid hb (exOneS_wf s) ⟨rfl, _, rfl⟩ ha hd h

theorem exDeclared_object (s : String) : TypedObject exRegion (exOneS (exK (.str s))) false "T.P"
    [.str "Resources", .str "A", .str "Properties", .str "S"] (exK (.str s)) :=
  exOneS_object (by rintro ⟨_, h⟩; simp [exK] at h) (by simp [noValue, exK])

theorem exK_notIf (s : String) : ¬ IsIf (.dict (exK (.str s))) := by rintro ⟨_, h⟩; simp [exK] at h

theorem exK_leaf {s : String} {q : Path} {u : Val} (h : Leaf (.dict (exK (.str s))) q u) : q = [] ∧ u = .dict (exK (.str s)) := by
  obtain ⟨h1, h2, -⟩ := (leaf_of_notIf (exK_notIf s)).1 h
  exact ⟨h1, h2⟩

theorem exK_here (s : String) : Leaf (.dict (exK (.str s))) [] (.dict (exK (.str s))) := .here (exK_notIf s) (by simp [noValue, exK])

theorem exText_leaf {s : String} {q : Path} {u : Val} (h : Leaf (.str s) q u) : u = .str s :=
  ((leaf_of_notIf (by rintro ⟨_, e⟩; cases e)).1 h).2.1

theorem exK_noNull (s : String) : NoNullDeclared exDeclared (exK (.str s)) := by
  intro prop decl v _ hv
  simp [exK] at hv
  obtain ⟨-, rfl⟩ := hv
  exact ⟨by simp, fun q h => by cases exText_leaf h⟩

theorem exText_value (s : String) : PropValue (.str s) [] (.str s) :=
  ⟨[], _, .here (by rintro ⟨_, e⟩; cases e) (by simp [noValue]), .inl ⟨by simp, rfl, rfl⟩⟩

theorem exText_only {s : String} {q : Path} {u : Val} (h : PropValue (.str s) q u) : u = .str s := by
  obtain ⟨q', w, h1, h2⟩ := h
  cases exText_leaf h1
  rcases h2 with ⟨-, -, rfl⟩ | ⟨_, _, _, _, e, -⟩
  · rfl
  · cases e

theorem exText_known (s : String) : Known (.str s) := fun f a e => by cases e

/-- `C128_typed_partial` -/
example : Fits (fun _ => false) true "String" (.str "a") :=
  C128_typed_partial (exDeclared_run (id := "E3012") ⟨['3', '0', '1', '2'], by decide⟩ (fun _ => rfl) (by decide) (by decide +kernel)
      ((exStatus_eq _ (primitivesOf exRegion (fun _ => false) true 2 (fun _ => "m")) (by decide) (by decide) _).trans (by decide +kernel)))
    (fun _ _ => rfl) List.mem_cons_self (oneRule_inForce (by decide) (by decide)) (exOneS_followed "a") (exDeclared_object "a") exDeclared_in exDeclared_wf
    (exK_noNull "a")
    (fun prop pt b v q u _ _ hv hu => by
      simp [exK] at hv
      obtain ⟨-, rfl⟩ := hv
      cases exText_only hu
      exact ⟨fun _ => ⟨by simp, by simp⟩, by simp⟩)
    (b := true) ⟨_, exDeclared_property, .inl ⟨by decide, by decide⟩⟩
    (fun decl hd hm => by
      rw [PropertyIn, show look exDeclared [.str "Properties", .str "K"] = some exDeclaration by decide] at hd
      cases hd
      exact absurd hm.1 (by decide))
    (by simp [IsStrict, LooseProp]) (List.mem_singleton.2 rfl) (exText_value "a") (exText_known "a") (by simp)

/-- `C128_listed_partial` -/
example : Val.str "a" ∈ [Val.str "a", .str "b"] :=
  C128_listed_partial (E := exText) (u := .str "a") (exDeclared_run (id := "E3030") ⟨['3', '0', '3', '0'], by decide⟩ (fun _ => rfl) (by decide) (by decide +kernel)
      ((exStatus_eq _ (allowedOf exRegion exText 2 (fun _ => "m")) (by decide) (by decide) _).trans (by decide +kernel)))
    (fun _ _ => rfl) List.mem_cons_self (oneRule_inForce (by decide) (by decide)) (exOneS_followed "a") (exDeclared_object "a") exDeclared_in exDeclared_wf
    (fun q u h => ⟨_, (exK_leaf h).2⟩) (fun q l h => by cases (exK_leaf h).2; exact exK_noNull "a")
    exDeclared_property exDeclared_names (by decide) List.mem_cons_self (exK_here "a") (List.mem_singleton.2 rfl) (exText_value "a") (exText_known "a")
    (by rintro ⟨x, y, h⟩; have := congrArg List.length h; simp [valueText] at this; omega)

/-- `C128_matched_partial` -/
example : exText.matches_ "a|b" "a" = true :=
  C128_matched_partial (E := exText) (u := .str "a") (exDeclared_run (id := "E3031") ⟨['3', '0', '3', '1'], by decide⟩ (fun _ => rfl) (by decide) (by decide +kernel)
      ((exStatus_eq _ (patternsFor exRegion exText 2 (fun _ => "m")) (by decide) (by decide) _).trans (by decide +kernel)))
    (fun _ _ => rfl) List.mem_cons_self (oneRule_inForce (by decide) (by decide)) (exOneS_followed "a") (exDeclared_object "a") exDeclared_in exDeclared_wf
    (fun q u h => ⟨_, (exK_leaf h).2⟩) (fun q l h => by cases (exK_leaf h).2; exact exK_noNull "a")
    exDeclared_property exDeclared_names ⟨by decide, by decide⟩ (exK_here "a") (List.mem_singleton.2 rfl) (exText_value "a") (exText_known "a")
    ⟨by simp, by simp, by simp⟩ (by rintro ⟨x, y, h⟩; have := congrArg List.length h; simp [valueText] at this; omega)

/-- `C128_sized_partial` -/
example : (1 : Int) ≤ "abc".length ∧ ("abc".length : Int) ≤ 3 :=
  C128_sized_partial (exDeclared_run (id := "E3033") ⟨['3', '0', '3', '3'], by decide⟩ (fun _ => rfl) (by decide) (by decide +kernel)
      ((exStatus_eq _ (lengthsOf exRegion 2 (fun _ => "m")) (by decide) (by decide) _).trans (by decide +kernel)))
    (fun _ _ => rfl) List.mem_cons_self (oneRule_inForce (by decide) (by decide)) (exOneS_followed "abc") (exDeclared_object "abc") exDeclared_in exDeclared_wf
    (exK_notIf "abc") (by simp [noValue, exK]) (exK_noNull "abc")
    (fun prop decl entry _ h => by
      obtain ⟨n, -, -, h⟩ := h
      have := dlookup_mem h
      simp [exRegion] at this
      obtain ⟨-, rfl⟩ := this
      exact ⟨by decide, by decide⟩)
    exDeclared_property exDeclared_names (by decide) (by decide)
    (.inr ⟨fun h => absurd h.1 (by decide), by decide, by decide⟩) (List.mem_singleton.2 rfl) (exText_value "abc")

/-- `C128_bounded_partial` -/
example : ∃ x, NumberIn exText (.str "2") x :=
  (C128_bounded_partial (E := exText) (lo := .int 1) (hi := .int 3) (exDeclared_run (id := "E3034") ⟨['3', '0', '3', '4'], by decide⟩ (fun _ => rfl) (by decide) (by decide +kernel)
      ((exStatus_eq _ (numbersOf exRegion exText 2 (fun _ => "m")) (by decide) (by decide) _).trans (by decide +kernel)))
    (fun _ _ => rfl) List.mem_cons_self (oneRule_inForce (by decide) (by decide)) (exOneS_followed "2") (exDeclared_object "2") exDeclared_in exDeclared_wf
    (exK_notIf "2") (by simp [noValue, exK]) (exK_noNull "2") exDeclared_property exDeclared_names ⟨by decide, by simp⟩ ⟨by decide, by simp⟩
    (pt := "String") ⟨by decide, by decide⟩ (by simp) (List.mem_singleton.2 rfl) (exText_value "2") (exText_known "2")).1 "2" rfl

/-- `C128_declared`, `C128_types`, `C128_followed` and `C128_resources` -/
example : DeclaresPrimitive exDeclared "K" "String" ∧ (∃ d, typeOf (traversed exRegion) "T" "P" = some d) ∧
    (∃ ps, dlookup "T" (traversed exRegion).resourceTypes = some ps) :=
  ⟨⟨_, exDeclared_property, .inl ⟨by decide, by decide⟩⟩, ⟨_, rfl⟩, ⟨_, rfl⟩⟩

end CfnLint
