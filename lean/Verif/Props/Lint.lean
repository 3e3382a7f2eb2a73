import Verif.Model.Lint
import Verif.Props.Rules
import Verif.Props.Runner
import Verif.Props.Core
import Verif.Props.Main
import Verif.Props.Template
import Verif.Props.Traverse
import Verif.Props.Refs
import Verif.Props.Graph
/-
Property C127: from the functions of the rules to the status of the process.
-/
namespace CfnLint
open Spec

namespace Spec

/-- a resource of the template with its type and its properties -/
def ResourceWith (t : Val) (name : Key) (rt : String) (props : List (Key × Val)) : Prop :=
  ∃ top rs kvs, t = .dict top ∧ (.str "Resources", .dict rs) ∈ top ∧ (name, .dict kvs) ∈ rs ∧ dlookup (.str "Type") kvs = some (.str rt) ∧
    dlookup (.str "Properties") kvs = some (.dict props)

/-- the calls of a rule's functions a run makes: once on the template, on the properties of every resource of a type the rule
registered for, and on every value the traversal visits with a type the rule registered for -/
inductive Call (S : TypeSpecs) (b : Behaviour) (t : Val) : PyM (List (Path × String)) → Prop where
  | whole {f} : b.whole = some f → Call S b t (f t)
  | properties {f name rt props} : b.properties = some f → ResourceWith t name rt props → rt ∈ b.propertyTypes →
      Call S b t (f t (.dict props) rt [.str "Resources", name, .str "Properties"])
  | subProperties {f name rt props} {v : Visit} : b.subProperties = some f → ResourceWith t name rt props →
      v ∈ visitResource S rt props [.str "Resources", name, .str "Properties"] → v.typeName ∈ b.subTypes →
      Call S b t (f t v.value v.typeName v.path)

/-- the finding says what the rule says, at the place of the path -/
def ShowsAt (filename : String) (info : RuleInfo) (t : MVal) (p : Path) (msg : String) (m : Match) : Prop :=
  m.rule = info ∧ m.filename = filename ∧ m.message = msg ∧ matchSpan t p = .ok (m.line, m.col, m.lineEnd, m.colEnd)

/-- the finding says that the rule failed -/
def Failed (info : RuleInfo) (m : Match) : Prop :=
  m.rule.id = "E0002" ∧ ∃ s, m.message = "Unknown exception while processing rule " ++ info.id ++ ": " ++ s

/-- the place of some result cannot be determined -/
def Lost (t : MVal) (rs : List (Path × String)) : Prop := ∃ p msg e, (p, msg) ∈ rs ∧ matchSpan t p = .error e

end Spec

/-! ### the decorator -/

theorem getLocation_error : ∀ {p : Path} {t : MVal} {e : PyErr}, getLocation t p = .error e → ∀ s, e ≠ .templateAttributeError s := by
  have hscan : ∀ {t : MVal} {k : Key} {e : PyErr}, scanText t k = .error e → ∀ s, e ≠ .templateAttributeError s := by
    intro t k e h s
    unfold scanText at h
    split at h <;> cases h
    exact (nomatch ·)
  have hidx : ∀ {α : Type} {xs : List α} {i : Int} {e : PyErr}, listIndex xs i = .error e → ∀ s, e ≠ .templateAttributeError s := by
    intro α xs i e h s he
    subst he
    simp only [listIndex] at h
    repeat' split at h
    all_goals simp at h
  have hsub : ∀ {t : MVal} {k : Key} {e : PyErr}, t.subscript k = .error e → ∀ s, e ≠ .templateAttributeError s := by
    intro t k e h s he
    subst he
    unfold MVal.subscript at h
    repeat' split at h
    all_goals first | (cases h; done) | exact hidx h s rfl | skip
    all_goals
      rename_i str i
      cases hi : listIndex str.toList i with
      | ok c => rw [hi] at h; cases h
      | error e => rw [hi] at h; cases h; exact hidx hi s rfl
  intro p
  induction p with
  | nil =>
    intro t e h s he
    subst he
    unfold getLocation at h
    repeat' split at h
    all_goals cases h
  | cons k p ih =>
    intro t e h s he
    subst he
    cases p with
    | nil =>
      unfold getLocation at h
      split at h
      · split at h
        · rename_i e' he'
          cases h
          exact hidx he' s rfl
        · split at h <;> cases h
      · exact hscan h s rfl
    | cons k' rest =>
      rw [getLocation] at h
      split at h
      · cases h
      · exact hscan h s rfl
      · exact hscan h s rfl
      · exact hscan h s rfl
      · rename_i e' h1 h2 h3
        cases h
        split at h3
        · rename_i e'' he''
          cases h3
          exact hsub he'' s rfl
        · exact ih h3 s rfl

theorem matchSpan_error {p : Path} {t : MVal} {e : PyErr} (h : matchSpan t p = .error e) (s : String) :
    e ≠ .templateAttributeError s := by
  unfold matchSpan at h
  split at h
  · rename_i e' he
    cases h
    exact getLocation_error he s
  · cases h
  · cases h

theorem placeAll_spec (filename : String) (info : RuleInfo) (t : MVal) : ∀ rs : List (Path × String),
    (∃ ms, placeAll filename info t rs = .ok ms ∧
      List.Forall₂ (fun r m => ShowsAt filename info t r.1 r.2 m) rs ms) ∨
    (∃ e, placeAll filename info t rs = .error e ∧ (∀ s, e ≠ .templateAttributeError s) ∧ Lost t rs)
  | [] => .inl ⟨[], rfl, .nil⟩
  | (p, msg) :: rest => by
    cases hp : matchSpan t p with
    | error e =>
      exact .inr ⟨e, by simp [placeAll, hp], matchSpan_error hp, p, msg, e, List.mem_cons_self, hp⟩
    | ok q =>
      obtain ⟨l, c, le, ce⟩ := q
      rcases placeAll_spec filename info t rest with ⟨ms, h1, h2⟩ | ⟨e, h1, h2, p', m', e', h3, h4⟩
      · exact .inl ⟨_, by simp only [placeAll, hp, h1]; rfl, .cons ⟨rfl, rfl, rfl, hp⟩ h2⟩
      · exact .inr ⟨e, by simp [placeAll, hp, h1], h2, p', m', e', List.mem_cons_of_mem _ h3, h4⟩

/-! ### the calls -/

theorem mem_eraseDict {k : Key} {v : Val} : ∀ {kvs : List (MKey × MVal)},
    (k, v) ∈ MVal.eraseDict kvs ↔ ∃ kv ∈ kvs, kv.1.key = k ∧ kv.2.erase = v
  | [] => by simp [MVal.eraseDict]
  | (mk, mv) :: rest => by
    rw [MVal.eraseDict, List.mem_cons, mem_eraseDict]
    constructor
    · rintro (h | ⟨kv, h1, h2⟩)
      · cases h; exact ⟨_, List.mem_cons_self, rfl, rfl⟩
      · exact ⟨kv, List.mem_cons_of_mem _ h1, h2⟩
    · rintro ⟨kv, h1, h2, h3⟩
      rcases List.mem_cons.1 h1 with rfl | h1
      · exact .inl (by rw [← h2, ← h3])
      · exact .inr ⟨kv, h1, h2, h3⟩

theorem dlookup_eraseDict {k : Key} : ∀ {kvs : List (MKey × MVal)},
    dlookup k (MVal.eraseDict kvs) = (MVal.find k kvs).map MVal.erase
  | [] => rfl
  | (mk, mv) :: rest => by
    rw [MVal.eraseDict, MVal.find]
    by_cases h : mk.key = k
    · simp [dlookup, h]
    · simp [dlookup, h, dlookup_eraseDict]

/-- the resources a run goes over are those with a type -/
theorem mGetResources_spec {m : Span} {top : List (MKey × MVal)} (hw : MWF (.dict m top)) :
    ∃ rs, mGetResources (.dict m top) = .ok rs ∧ ∀ name kvs rt, dlookup (.str "Type") kvs = some (.str rt) →
      ((∃ kv ∈ rs, kv.1.key = name ∧ kv.2.erase = .dict kvs) ↔
        ∃ rs', (.str "Resources", .dict rs') ∈ MVal.eraseDict top ∧ (name, .dict kvs) ∈ rs') := by
  have hw' : (Val.dict (MVal.eraseDict top)).WF := hw
  have hnd : ((MVal.eraseDict top).map Prod.fst).Nodup := by rw [Val.WF] at hw'; exact hw'.1
  have hat : ∀ rs', (.str "Resources", .dict rs') ∈ MVal.eraseDict top ↔
      (MVal.find (.str "Resources") top).map MVal.erase = some (.dict rs') := by
    intro rs'
    rw [← dlookup_eraseDict]
    exact ⟨fun h => dlookup_of_mem hnd h, fun h => dlookup_mem h⟩
  simp only [hat]
  cases hf : MVal.find (.str "Resources") top with
  | none => exact ⟨[], by simp [mGetResources, MVal.get, hf], fun name kvs rt _ => by simp⟩
  | some v =>
    cases v with
    | dict m' rs =>
      refine ⟨_, by simp only [mGetResources, MVal.get, hf, Option.getD_some]; rfl, fun name kvs rt ht => ?_⟩
      simp only [Option.map_some, MVal.erase, Option.some.injEq, Val.dict.injEq, exists_eq_left']
      constructor
      · rintro ⟨kv, h1, h2, h3⟩
        exact mem_eraseDict.2 ⟨kv, (List.mem_filter.1 h1).1, h2, h3⟩
      · intro hm
        obtain ⟨kv, h1, h2, h3⟩ := mem_eraseDict.1 hm
        refine ⟨kv, List.mem_filter.2 ⟨h1, ?_⟩, h2, h3⟩
        obtain ⟨mk, mv⟩ := kv
        cases mv with
        | dict m'' body =>
          simp only [MVal.erase, Val.dict.injEq] at h3
          subst h3
          rw [dlookup_eraseDict] at ht
          cases hft : MVal.find (.str "Type") body with
          | none => rw [hft] at ht; cases ht
          | some ty =>
            rw [hft] at ht
            cases ty <;> simp_all [MVal.erase]
        | _ => simp [MVal.erase] at h3
    | _ =>
      exact ⟨[], by simp only [mGetResources, MVal.get, hf, Option.getD_some], fun name kvs rt _ => by simp [MVal.erase]⟩

/-- the checks of a run, in order -/
def allChecks (S : TypeSpecs) (beh : RuleObj → Behaviour) (rules : List RuleObj) (filename : String) (t : MVal)
    (rs : List (MKey × MVal)) : List (String × PyM (List Match)) :=
  rules.map (fun r => (r.info.id, matchAll filename t r.info (beh r))) ++
    rs.flatMap (fun kv => resourceChecks S beh rules filename t kv.1.key kv.2.erase)

/-- each call of a rule is a check -/
theorem call_check {S : TypeSpecs} {beh : RuleObj → Behaviour} {rules : List RuleObj} {filename : String} {m : Span}
    {top : List (MKey × MVal)} (hw : MWF (.dict m top)) {rs : List (MKey × MVal)} (hrs : mGetResources (.dict m top) = .ok rs)
    {r : RuleObj} (hr : r ∈ rules) {call : PyM (List (Path × String))}
    (h : Call S (beh r) (MVal.dict m top).erase call) :
    (r.info.id, placed filename r.info (.dict m top) call) ∈ allChecks S beh rules filename (.dict m top) rs := by
  obtain ⟨rs', h1, h2⟩ := mGetResources_spec hw
  rw [hrs] at h1
  cases h1
  have hres : ∀ {name rt props}, ResourceWith (MVal.dict m top).erase name rt props →
      ∃ kv ∈ rs, kv.1.key = name ∧ ∃ kvs, kv.2.erase = .dict kvs ∧ dlookup (.str "Type") kvs = some (.str rt) ∧
        dlookup (.str "Properties") kvs = some (.dict props) := by
    rintro name rt props ⟨top', rs', kvs, e, h3, h4, h5, h6⟩
    cases e
    obtain ⟨kv, a, b, c⟩ := (h2 name kvs rt h5).2 ⟨rs', h3, h4⟩
    exact ⟨kv, a, b, kvs, c, h5, h6⟩
  unfold allChecks
  rw [List.mem_append]
  cases h with
  | whole hf =>
    refine .inl (List.mem_map.2 ⟨r, hr, ?_⟩)
    simp only [matchAll, hf]
  | properties hf hres' ht =>
    obtain ⟨kv, a, b, kvs, c, d, e⟩ := hres hres'
    refine .inr (List.mem_flatMap.2 ⟨kv, a, ?_⟩)
    simp only [resourceChecks, c, d, e, b]
    refine List.mem_append_left _ (List.mem_map.2 ⟨r, hr, ?_⟩)
    simp only [matchProperties, hf, List.contains_iff_mem.2 ht, if_true]
  | subProperties hf hres' hv ht =>
    obtain ⟨kv, a, b, kvs, c, d, e⟩ := hres hres'
    refine .inr (List.mem_flatMap.2 ⟨kv, a, ?_⟩)
    simp only [resourceChecks, c, d, e, b]
    refine List.mem_append_right _ (List.mem_flatMap.2 ⟨_, hv, List.mem_map.2 ⟨r, hr, ?_⟩⟩)
    simp only [matchSubProperties, hf, List.contains_iff_mem.2 ht, if_true]

/-- each check is a call of a rule, or finds nothing -/
theorem check_call {S : TypeSpecs} {beh : RuleObj → Behaviour} {rules : List RuleObj} {filename : String} {m : Span}
    {top : List (MKey × MVal)} (hw : MWF (.dict m top)) {rs : List (MKey × MVal)} (hrs : mGetResources (.dict m top) = .ok rs)
    {rid : String} {chk : PyM (List Match)} (h : (rid, chk) ∈ allChecks S beh rules filename (.dict m top) rs) :
    ∃ r ∈ rules, rid = r.info.id ∧ (chk = .ok [] ∨
      ∃ call, Call S (beh r) (MVal.dict m top).erase call ∧ chk = placed filename r.info (.dict m top) call) := by
  obtain ⟨rs', h1, h2⟩ := mGetResources_spec hw
  rw [hrs] at h1
  cases h1
  unfold allChecks at h
  rcases List.mem_append.1 h with h | h
  · obtain ⟨r, hr, e⟩ := List.mem_map.1 h
    cases e
    refine ⟨r, hr, rfl, ?_⟩
    unfold matchAll
    cases hf : (beh r).whole with
    | none => exact .inl rfl
    | some f => exact .inr ⟨_, .whole hf, rfl⟩
  · obtain ⟨kv, hkv, h⟩ := List.mem_flatMap.1 h
    unfold resourceChecks at h
    split at h
    · rename_i kvs he
      split at h
      · rename_i rt props ht hp
        have hres : ResourceWith (MVal.dict m top).erase kv.1.key rt props := by
          obtain ⟨rs', a, b⟩ := (h2 kv.1.key kvs rt ht).1 ⟨kv, hkv, rfl, he⟩
          exact ⟨_, rs', kvs, rfl, a, b, ht, hp⟩
        rcases List.mem_append.1 h with h | h
        · obtain ⟨r, hr, e⟩ := List.mem_map.1 h
          cases e
          refine ⟨r, hr, rfl, ?_⟩
          unfold matchProperties
          cases hf : (beh r).properties with
          | none => exact .inl rfl
          | some f =>
            by_cases hc : (beh r).propertyTypes.contains rt = true
            · simp only [hc, if_true]
              exact .inr ⟨_, .properties hf hres (List.contains_iff_mem.1 hc), rfl⟩
            · simp only [hc]
              exact .inl rfl
        · obtain ⟨v, hv, h⟩ := List.mem_flatMap.1 h
          obtain ⟨r, hr, e⟩ := List.mem_map.1 h
          cases e
          refine ⟨r, hr, rfl, ?_⟩
          unfold matchSubProperties
          cases hf : (beh r).subProperties with
          | none => exact .inl rfl
          | some f =>
            by_cases hc : (beh r).subTypes.contains v.typeName = true
            · simp only [hc, if_true]
              exact .inr ⟨_, .subProperties hf hres hv (List.contains_iff_mem.1 hc), rfl⟩
            · simp only [hc]
              exact .inl rfl
      · cases h
    · cases h

theorem runChecksSeq_append (cfg : Cfg) (filename : String) : ∀ (a b : List (String × PyM (List Match))) (acc : List Match),
    runChecksSeq cfg filename (a ++ b) acc =
      match runChecksSeq cfg filename a acc with
      | .error e => .error e
      | .ok ms => runChecksSeq cfg filename b ms
  | [], b, acc => by simp [runChecksSeq]
  | (rid, chk) :: a, b, acc => by
    simp only [List.cons_append, runChecksSeq]
    cases runCheck cfg filename rid chk with
    | error e => rfl
    | ok o =>
      cases o with
      | none => rfl
      | some ms => exact runChecksSeq_append cfg filename a b _

theorem runOf_source {filename : String} {checks : List (String × PyM (List Match))} {out : List Match}
    (h : RunOf filename checks out) : ∀ x ∈ out, ∃ rid chk ms, (rid, chk) ∈ checks ∧ Contributes filename rid chk ms ∧ x ∈ ms := by
  induction h with
  | nil => intro x hx; cases hx
  | cons hc hr ih =>
    intro x hx
    rcases List.mem_append.1 hx with hx | hx
    · exact ⟨_, _, _, List.mem_cons_self, hc, hx⟩
    · obtain ⟨rid, chk, ms, a, b, c⟩ := ih x hx
      exact ⟨rid, chk, ms, List.mem_cons_of_mem _ a, b, c⟩

theorem runOf_each {filename : String} {checks : List (String × PyM (List Match))} {out : List Match}
    (h : RunOf filename checks out) : ∀ x ∈ checks, ∃ ms, Contributes filename x.1 x.2 ms ∧ ∀ m ∈ ms, m ∈ out := by
  induction h with
  | nil => intro x hx; cases hx
  | cons hc hr ih =>
    intro x hx
    rcases List.mem_cons.1 hx with rfl | hx
    · exact ⟨_, hc, fun m hm => List.mem_append_left _ hm⟩
    · obtain ⟨ms, a, b⟩ := ih x hx
      exact ⟨ms, a, fun m hm => List.mem_append_right _ (b m hm)⟩

theorem initializeAll_ok {beh : RuleObj → Behaviour} {t : Val} : ∀ {rules : List RuleObj},
    (∀ r ∈ rules, (beh r).setUp t = .ok ()) → initializeAll beh t rules = .ok ()
  | [], _ => rfl
  | r :: rest, h => by
    rw [initializeAll, h r List.mem_cons_self]
    exact initializeAll_ok (fun r' hr' => h r' (List.mem_cons_of_mem _ hr'))

/-- **C127** When E0002 is in force and every rule of the collection can be set up, a run over a template completes. Every
result of every call of every rule becomes a finding of that rule at the place of its path, unless the place of one of the
results of the call cannot be determined; then, and when a call raises, E0002 names the rule, except for the error of
accessing an attribute of a template node, which is passed over. There are no other findings. -/
theorem C127_run (S : TypeSpecs) (beh : RuleObj → Behaviour) (c : Coll) (filename : String) (m : Span)
    (top : List (MKey × MVal)) (hw : MWF (.dict m top)) (hE : isRuleEnabled c.cfg { id := "E0002" } = .ok true)
    (hset : ∀ r ∈ c.active, (beh r).setUp (MVal.dict m top).erase = .ok ()) :
    ∃ out, collectionRun S beh c filename (.dict m top) = .ok out ∧
      (∀ r ∈ c.active, ∀ rs, Call S (beh r) (MVal.dict m top).erase (.ok rs) →
        (∀ p msg, (p, msg) ∈ rs → ∃ x ∈ out, ShowsAt filename r.info (.dict m top) p msg x) ∨
        (Lost (.dict m top) rs ∧ ∃ x ∈ out, Failed r.info x)) ∧
      (∀ r ∈ c.active, ∀ e, Call S (beh r) (MVal.dict m top).erase (.error e) →
        (∃ s, e = .templateAttributeError s) ∨ ∃ x ∈ out, Failed r.info x) ∧
      (∀ x ∈ out, ∃ r ∈ c.active, ∃ call, Call S (beh r) (MVal.dict m top).erase call ∧
        ((∃ rs p msg, call = .ok rs ∧ (p, msg) ∈ rs ∧ ShowsAt filename r.info (.dict m top) p msg x) ∨
         (Failed r.info x ∧ ((∃ rs, call = .ok rs ∧ Lost (.dict m top) rs) ∨
           ∃ e, call = .error e ∧ ∀ s, e ≠ .templateAttributeError s)))) := by
  obtain ⟨rs, hrs, _⟩ := mGetResources_spec hw
  obtain ⟨out, h1, h2⟩ := C05_isolation_partial c.cfg hE filename (allChecks S beh c.active filename (.dict m top) rs)
  have hrun : collectionRun S beh c filename (.dict m top) = .ok out := by
    unfold allChecks at h1
    rw [runChecksSeq_append] at h1
    unfold collectionRun
    rw [initializeAll_ok hset]
    dsimp only
    split at h1
    · cases h1
    · rename_i ms hms
      rw [hms]
      dsimp only
      rw [hrs]
      exact h1
  refine ⟨out, hrun, ?_, ?_, ?_⟩
  · intro r hr rs' hcall
    obtain ⟨ms, a, b⟩ := runOf_each h2 _ (call_check (filename := filename) hw hrs hr hcall)
    simp only [placed] at a
    rcases placeAll_spec filename r.info (.dict m top) rs' with ⟨ms', h3, h4⟩ | ⟨e, h3, h4, h5⟩
    · rw [h3] at a
      have a' : ms = ms' := a
      subst a'
      left
      intro p msg hp
      obtain ⟨i, hi, he⟩ := List.mem_iff_getElem.1 hp
      have hi' : i < ms.length := by rw [← h4.length_eq]; exact hi
      have := (List.forall₂_iff_get.1 h4).2 i hi hi'
      simp only [List.get_eq_getElem, he] at this
      exact ⟨_, b _ (List.getElem_mem hi'), this⟩
    · rw [h3] at a
      right
      refine ⟨h5, ?_⟩
      cases e with
      | templateAttributeError s => exact absurd rfl (h4 s)
      | _ =>
        obtain ⟨x, hx, h6, _, _, s, h7⟩ := a
        exact ⟨x, b x (by simp [hx]), h6, s, h7⟩
  · intro r hr e hcall
    obtain ⟨ms, a, b⟩ := runOf_each h2 _ (call_check (filename := filename) hw hrs hr hcall)
    simp only [placed] at a
    cases e with
    | templateAttributeError s => exact .inl ⟨s, rfl⟩
    | _ =>
      obtain ⟨x, hx, h6, _, _, s, h7⟩ := a
      exact .inr ⟨x, b x (by simp [hx]), h6, s, h7⟩
  · intro x hx
    obtain ⟨rid, chk, ms, h3, h4, h5⟩ := runOf_source h2 x hx
    obtain ⟨r, hr, rfl, h6⟩ := check_call hw hrs h3
    rcases h6 with rfl | ⟨call, h6, rfl⟩
    · have h4' : ms = [] := h4
      subst h4'
      cases h5
    · refine ⟨r, hr, call, h6, ?_⟩
      cases call with
      | ok rs' =>
        simp only [placed] at h4
        rcases placeAll_spec filename r.info (.dict m top) rs' with ⟨ms', h7, h8⟩ | ⟨e, h7, h8, h9⟩
        · rw [h7] at h4
          have h4' : ms = ms' := h4
          subst h4'
          obtain ⟨i, hi, he⟩ := List.mem_iff_getElem.1 h5
          have hi' : i < rs'.length := by rw [h8.length_eq]; exact hi
          have := (List.forall₂_iff_get.1 h8).2 i hi' hi
          simp only [List.get_eq_getElem, he] at this
          exact .inl ⟨rs', _, _, rfl, List.getElem_mem hi', this⟩
        · rw [h7] at h4
          refine .inr ⟨?_, .inl ⟨rs', rfl, h9⟩⟩
          cases e with
          | templateAttributeError s => exact absurd rfl (h8 s)
          | _ =>
            obtain ⟨y, hy, h10, _, _, s, h11⟩ := h4
            subst hy
            cases List.mem_singleton.1 h5
            exact ⟨h10, s, h11⟩
      | error e =>
        simp only [placed] at h4
        cases e with
        | templateAttributeError s =>
          have h4' : ms = [] := h4
          subst h4'
          cases h5
        | _ =>
          obtain ⟨y, hy, h10, _, _, s, h11⟩ := h4
          subst hy
          cases List.mem_singleton.1 h5
          exact .inr ⟨⟨h10, s, h11⟩, .inr ⟨_, rfl, fun s' => by simp⟩⟩

/-! ### one template -/

/-- what a run reports for a template without a transformation -/
theorem lintTemplate_spec {all : List String} {regions : List Val} {S : TypeSpecs} {beh : RuleObj → Behaviour} {c : Coll}
    {filename : String} {t : MVal} {out : List Match} {dirs : Directives} {mand : List String} {raw : List Match}
    (h : lintTemplate all regions S beh c filename t = .ok out) (hm : c.cfg.mandatory = mand.map .str)
    (hd : getDirectives t = .ok dirs) (hr : collectionRun S beh c filename t = .ok raw) :
    (∀ x ∈ out, x ∈ raw) ∧ ∀ x ∈ raw, ¬ Suppressed Touches dirs mand x → ∃ y ∈ out, SameFinding x y := by
  obtain ⟨ms, h1, _, h3, h4⟩ := C06_unique_ordered_complete dirs mand raw
  have hrun : runnerRun t (collectionRun S beh c filename t) c.cfg.mandatory = .ok ms := by
    simp only [runnerRun, hr, hd, hm, h1]
  unfold lintTemplate at h
  rw [hrun] at h
  obtain ⟨hp, _, _⟩ := C10_sorted_report all regions c.cfg ms out h
  refine ⟨fun x hx => h3.subset (hp.mem_iff.1 hx), fun x hx hs => ?_⟩
  obtain ⟨y, hy, hxy⟩ := h4 x hx hs
  exact ⟨y, hp.mem_iff.2 hy, hxy⟩

/-- the result is reported: a finding of the rule with the message, at the place of the path -/
def Spec.Reported (info : RuleInfo) (t : MVal) (p : Path) (msg : String) (out : List Match) : Prop :=
  ∃ x ∈ out, x.rule.id = info.id ∧ x.message = msg ∧ ∃ le ce, matchSpan t p = .ok (x.line, x.col, le, ce)

/-- **C127** in full: what a rule of the collection says about a place of a template is reported, when no resource asks to
ignore anything and E0002 is in force. -/
def C127_report_statement : Prop :=
  ∀ (S : TypeSpecs) (beh : RuleObj → Behaviour) (c : Coll) (filename : String) (m : Span) (top : List (MKey × MVal))
    (out : List Match), MWF (.dict m top) → isRuleEnabled c.cfg { id := "E0002" } = .ok true → c.cfg.mandatory = [] →
    getDirectives (.dict m top) = .ok [] → lintTemplate [] [] S beh c filename (.dict m top) = .ok out →
    ∀ r ∈ c.active, ∀ rs, Call S (beh r) (MVal.dict m top).erase (.ok rs) → ∀ p msg, (p, msg) ∈ rs → p ≠ [] →
      (∃ v, MAt (.dict m top) p v) → Reported r.info (.dict m top) p msg out

/-- what is reported when every result of the call has a place and every rule can be set up; a finding is missing only
where a resource asks to ignore it -/
theorem C127_report_partial (all : List String) (regions : List Val) (S : TypeSpecs) (beh : RuleObj → Behaviour) (c : Coll)
    (filename : String) (m : Span) (top : List (MKey × MVal)) (out : List Match) (dirs : Directives) (mand : List String)
    (hw : MWF (.dict m top)) (hE : isRuleEnabled c.cfg { id := "E0002" } = .ok true) (hm : c.cfg.mandatory = mand.map .str)
    (hd : getDirectives (.dict m top) = .ok dirs) (h : lintTemplate all regions S beh c filename (.dict m top) = .ok out)
    (hset : ∀ r ∈ c.active, (beh r).setUp (MVal.dict m top).erase = .ok ())
    (r : RuleObj) (hr : r ∈ c.active) (rs : List (Path × String)) (hcall : Call S (beh r) (MVal.dict m top).erase (.ok rs))
    (hpl : ∀ p msg, (p, msg) ∈ rs → p ≠ [] ∧ ∃ v, MAt (.dict m top) p v) (p : Path) (msg : String) (hp : (p, msg) ∈ rs)
    (hsup : ∀ x, ShowsAt filename r.info (.dict m top) p msg x → ¬ Suppressed Touches dirs mand x) :
    Reported r.info (.dict m top) p msg out := by
  obtain ⟨raw, h1, h2, _, _⟩ := C127_run S beh c filename m top hw hE hset
  obtain ⟨_, h4⟩ := lintTemplate_spec h hm hd h1
  rcases h2 r hr rs hcall with h2 | ⟨⟨p', msg', e, h5, h6⟩, _⟩
  · obtain ⟨x, hx, hs⟩ := h2 p msg hp
    obtain ⟨y, hy, a, b, c', d⟩ := h4 x hx (hsup x hs)
    obtain ⟨s1, _, s3, s4⟩ := hs
    refine ⟨y, hy, by rw [← c', s1], by rw [← d, s3], x.lineEnd, x.colEnd, by rw [s4, a, b]⟩
  · obtain ⟨hne, v, hv⟩ := hpl p' msg' h5
    obtain ⟨q, _, hq⟩ := C28_position (.dict m top) p' v hne hw hv
    rw [hq] at h6
    cases h6

/-- a template with one resource -/
def oneRes : MVal := .dict ⟨0, 0, 3, 0⟩ [(⟨.str "Resources", some ⟨0, 0, 0, 9⟩⟩, .dict ⟨1, 2, 3, 0⟩
  [(⟨.str "A", some ⟨1, 2, 1, 3⟩⟩, .dict ⟨2, 4, 3, 0⟩ [(⟨.str "Type", some ⟨2, 4, 2, 8⟩⟩, .str (some ⟨2, 10, 2, 20⟩) "T")])])]

theorem oneRes_wf : MWF oneRes := by
  simp [MWF, oneRes, MVal.erase, MVal.eraseDict, Val.WF, Val.WFDict]

/-- a collection of the rules -/
def collOf (objs : List RuleObj) : Coll :=
  { objs := objs, all := List.range objs.length, rules := List.range objs.length, cfg := { incl := [.str "W", .str "E"] } }

/-- the full statement does not hold: when setting up some other rule fails, nothing is reported -/
theorem C127_report_setup_violated : ¬ C127_report_statement := by
  intro h
  have := h ⟨[], []⟩ (fun r => if r.info.id = "E1" then { whole := some fun _ => .ok [([.str "Resources"], "wrong")] }
      else { setUp := fun _ => .error (.keyError "x") })
    (collOf [{ info := { id := "E1" } }, { info := { id := "E2" } }]) "t" _ _ [] oneRes_wf (by decide) rfl (by decide) (by decide)
    { info := { id := "E1" } } (by decide) [([.str "Resources"], "wrong")]
    (.whole (f := fun _ => .ok [([.str "Resources"], "wrong")]) rfl) _ _ List.mem_cons_self (by simp)
    ⟨_, .step (.key (mk := ⟨.str "Resources", some ⟨0, 0, 0, 9⟩⟩) List.mem_cons_self) .here⟩
  obtain ⟨x, hx, _⟩ := this
  cases hx

/-- the full statement does not hold: a result without a place hides the other results of its call -/
theorem C127_report_place_violated : ¬ C127_report_statement := by
  intro h
  have := h ⟨[], []⟩ (fun _ => { whole := some fun _ => .ok [([.str "Resources"], "wrong"), ([], "bad")] })
    (collOf [{ info := { id := "E1" } }]) "t" _ _
    [{ line := 1, col := 1, lineEnd := 1, colEnd := 1, filename := "t", rule := { id := "E0002" },
       message := "Unknown exception while processing rule E1: list index out of range" }]
    oneRes_wf (by decide) rfl (by decide) (by decide +kernel)
    { info := { id := "E1" } } (by decide) [([.str "Resources"], "wrong"), ([], "bad")]
    (.whole (f := fun _ => .ok [([.str "Resources"], "wrong"), ([], "bad")]) rfl) _ _ List.mem_cons_self (by simp)
    ⟨_, .step (.key (mk := ⟨.str "Resources", some ⟨0, 0, 0, 9⟩⟩) List.mem_cons_self) .here⟩
  obtain ⟨x, hx, h1, _⟩ := this
  rw [List.mem_singleton] at hx
  subst hx
  revert h1
  decide

-- a run of two rules
example : collectionRun ⟨[], []⟩ (fun r => if r.info.id = "E1" then
      { whole := some fun _ => .ok [([.str "Resources", .str "A", .str "Type"], "wrong")] } else
      { whole := some fun _ => .error (.keyError "x") })
    (collOf [{ info := { id := "E1" } }, { info := { id := "E2" } }]) "t" oneRes =
    .ok [{ line := 3, col := 5, lineEnd := 3, colEnd := 9, filename := "t", rule := { id := "E1" }, message := "wrong" },
         { line := 1, col := 1, lineEnd := 1, colEnd := 1, filename := "t", rule := { id := "E0002" },
           message := "Unknown exception while processing rule E2: x" }] := by
  decide +kernel

/-! ### the process -/

theorem lintAll_reached {objs : List RuleObj} {args : Sources} {check : Val → Option Coll → RunM (List Match)} :
    ∀ {ds : List Decoded} {st : LintState} {outs : List (List Match)}, Reach objs args st →
      lintAll objs args check st ds = .ok outs →
      List.Forall₂ (fun d out => d.errors = [] → d.template.truthy = true → ∃ st0 st1 c, Reach objs args st0 ∧
        getTemplateRules objs args st0 d = .ok (st1, d.template, some c, []) ∧ check d.template (some c) = .ok out) ds outs
  | [], st, outs, _, h => by
    simp only [lintAll, Except.ok.injEq] at h
    subst h; exact .nil
  | d :: ds, st, outs, hst, h => by
    rw [lintAll] at h
    cases hg : getTemplateRules objs args st d with
    | error e => rw [hg] at h; cases h
    | ok r =>
      obtain ⟨st', t, coll, errors⟩ := r
      rw [hg] at h
      dsimp only at h
      split at h
      · cases h
      · rename_i ms hm
        split at h
        · cases h
        · rename_i rest hr
          simp only [Except.ok.injEq] at h
          subst h
          refine .cons (fun he ht => ?_) (lintAll_reached (.step hst hg) hr)
          cases coll with
          | none => exact absurd he (getTemplateRules_bad hg).1
          | some c =>
            obtain ⟨targs, cfg, g1, g2, g3, g4, g5, g6, _⟩ := getTemplateRules_some hg
            subst g4 g5
            dsimp only at hm
            rw [if_pos ht] at hm
            exact ⟨st, st', c, hst, hg, hm⟩

/-- status 0 of the script: every template was checked with the collection loaded for it, and nothing was found -/
theorem zero_reached {objs : List RuleObj} {args : Sources} {check : Val → Option Coll → RunM (List Match)}
    {print : List Match → PyM Unit} {ds : List Decoded}
    (hexit : ∀ t c, check t c ≠ .error (.exit 0))
    (htruthy : ∀ d ∈ ds, d.errors = [] → d.template.truthy = true)
    (hignore : ignoreBadTemplate { args with template := [] } = .ok false)
    (hquiet : ∀ d ∈ ds, ∀ a, setTemplateArgs d.template = .ok a → quiet a)
    (hcheck : ∀ d ∈ ds, ∀ st0 st1 c ms, Reach objs args st0 → getTemplateRules objs args st0 d = .ok (st1, d.template, some c, []) →
      check d.template (some c) = .ok ms → ∀ m ∈ ms, Levelled m)
    (hdec : ∀ d ∈ ds, ∀ m ∈ d.errors, Levelled m)
    (h : runCommand .script objs args check print ds = 0) :
    ∀ d ∈ ds, d.errors = [] ∧ ∃ st0 st1 c, Reach objs args st0 ∧
      getTemplateRules objs args st0 d = .ok (st1, d.template, some c, []) ∧ check d.template (some c) = .ok [] := by
  unfold runCommand at h
  cases hl : lintAll objs args check {} ds with
  | error e =>
    rw [hl] at h
    cases e with
    | py e => cases e <;> simp [mainStatus, processStatus] at h
    | exit code =>
      simp only [mainStatus, processStatus] at h
      subst h
      exact absurd hl (lintAll_exit hexit)
  | ok outs =>
    rw [hl] at h
    simp only [mainStatus] at h
    cases hp : print outs.flatten with
    | error e => rw [hp] at h; cases e <;> simp [processStatus] at h
    | ok u =>
      rw [hp] at h
      simp only at h
      have hall := lintAll_forall quiet (by simp [quiet, dlookup]) hquiet hl
      have hreach := lintAll_reached .init hl
      have hign : ∀ s, quiet s → ignoreBadTemplate { args with template := s } ≠ .ok true := by
        intro s hs e
        rw [ignoreBadTemplate_quiet args s hs, hignore] at e
        cases e
      have hrel : List.Forall₂ (fun d out => (d.errors = [] → ∃ st0 st1 c, Reach objs args st0 ∧
          getTemplateRules objs args st0 d = .ok (st1, d.template, some c, []) ∧ check d.template (some c) = .ok out) ∧
          (d.errors ≠ [] → out = d.errors)) ds outs := by
        refine (List.forall₂_iff_get.2 ⟨hall.length_eq, fun i h1 h2 => ?_⟩)
        obtain ⟨_, b, c⟩ := (List.forall₂_iff_get.1 hall).2 i h1 h2
        refine ⟨fun he => (List.forall₂_iff_get.1 hreach).2 i h1 h2 he (htruthy _ (List.get_mem _ _) he), fun he => ?_⟩
        rcases c he with c | ⟨_, s, hs, hi⟩
        · exact c
        · exact absurd hi (hign s hs)
      have hlev : ∀ m ∈ outs.flatten, Levelled m := by
        intro m hm
        obtain ⟨out, ho, hm⟩ := List.mem_flatten.1 hm
        obtain ⟨i, hi, rfl⟩ := List.mem_iff_getElem.1 ho
        have hi' : i < ds.length := by rw [hrel.length_eq]; exact hi
        obtain ⟨a, b⟩ := (List.forall₂_iff_get.1 hrel).2 i hi' hi
        by_cases he : (ds.get ⟨i, hi'⟩).errors = []
        · obtain ⟨st0, st1, c, c1, c2, c3⟩ := a he
          exact hcheck _ (List.get_mem _ _) _ _ _ _ c1 c2 c3 m hm
        · have := b he
          simp only [List.get_eq_getElem] at this
          rw [this] at hm
          exact hdec _ (List.getElem_mem hi') m hm
      have hnil : outs.flatten = [] := by
        cases hc : getExitCode outs.flatten with
        | error e => rw [hc] at h; cases e <;> simp [processStatus] at h
        | ok n =>
          rw [hc] at h
          simp only [processStatus] at h
          subst h
          exact exitCode_zero hlev hc
      intro d hd
      obtain ⟨i, hi, rfl⟩ := List.mem_iff_getElem.1 hd
      have hi' : i < outs.length := by rw [← hrel.length_eq]; exact hi
      obtain ⟨a, b⟩ := (List.forall₂_iff_get.1 hrel).2 i hi hi'
      have hout : outs.get ⟨i, hi'⟩ = [] := List.flatten_eq_nil_iff.1 hnil _ (List.get_mem outs ⟨i, hi'⟩)
      rw [hout] at a b
      have he : ds[i].errors = [] := by
        by_contra he
        exact he (b he).symm
      exact ⟨he, a he⟩

/-- the template is checked with this configuration -/
def Spec.ConfiguredBy (args : Sources) (t : Val) (cfg : Cfg) : Prop :=
  ∃ targs cfg0, setTemplateArgs t = .ok targs ∧ currentCfg { args with template := targs } = .ok cfg0 ∧
    cfg = { cfg0 with incl := addDefaults cfg0.incl }

/-- no call of the rule found anything; an error of accessing an attribute of a template node is possible -/
def Spec.FoundNothing (S : TypeSpecs) (b : Behaviour) (t : Val) : Prop :=
  ∀ call, Call S b t call → call = .ok [] ∨ ∃ s, call = .error (.templateAttributeError s)

/-- **C127** in full: when the script ends with status 0, every rule that is in force for a template was called at every place
it registered for and found nothing, given that no rule id begins with another letter than those of the severities, that the
decoded templates are not empty, that errors of decoding are not ignored and that no resource asks to ignore anything. -/
def C127_clean_statement : Prop :=
  ∀ (objs : List RuleObj) (args : Sources) (all : List String) (regions : List Val) (S : TypeSpecs)
    (beh : RuleObj → Behaviour) (name : Val → String) (mark : Val → MVal) (print : List Match → PyM Unit) (ds : List Decoded),
    (∀ t, (mark t).erase = t) → (∀ r ∈ objs, ∀ x : Match, x.rule = r.info → Levelled x) →
    (∀ d ∈ ds, d.errors = [] → d.template.WF ∧ d.template.truthy = true ∧ ∃ top, d.template = .dict top) →
    ignoreBadTemplate { args with template := [] } = .ok false →
    (∀ d ∈ ds, ∀ a, setTemplateArgs d.template = .ok a → quiet a) → (∀ d ∈ ds, ∀ m ∈ d.errors, Levelled m) →
    (∀ d ∈ ds, getDirectives (mark d.template) = .ok []) →
    runCommand .script objs args (checkWith all regions S beh name mark) print ds = 0 →
    ∀ d ∈ ds, d.errors = [] ∧ ∃ cfg, ConfiguredBy args d.template cfg ∧
      ∀ r ∈ objs, isRuleEnabled cfg r.info = .ok true → ∃ r', r'.info = r.info ∧ FoundNothing S (beh r') d.template

theorem runChecks_not_exit0 {all : List String} {regions : List Val} {cfg : Cfg} {a : PyM Unit} {b c : PyM (List Match)} :
    runChecks all regions cfg a b c ≠ .error (.exit 0) := by
  unfold runChecks
  repeat' split
  all_goals simp

theorem active_info {objs : List RuleObj} {cfg : Cfg} {c : Coll} (h : CollOK objs cfg c) {r' : RuleObj} (hr : r' ∈ c.active) :
    ∃ r ∈ objs, r'.info = r.info := by
  obtain ⟨i, _, hi⟩ := List.mem_filterMap.1 hr
  have : (c.objs.map RuleObj.info)[i]? = some r'.info := by rw [List.getElem?_map, hi]; rfl
  rw [h.infos, List.getElem?_map] at this
  cases ho : objs[i]? with
  | none => rw [ho] at this; cases this
  | some r =>
    rw [ho] at this
    simp only [Option.map_some, Option.some.injEq] at this
    exact ⟨r, List.mem_of_getElem? ho, this.symm⟩

theorem active_of_enabled {objs : List RuleObj} {cfg : Cfg} {c : Coll} (h : CollOK objs cfg c) {r : RuleObj} (hr : r ∈ objs)
    (he : isRuleEnabled c.cfg r.info = .ok true) : ∃ r' ∈ c.active, r'.info = r.info := by
  obtain ⟨i, hi⟩ := List.getElem?_of_mem hr
  have hlt : i < objs.length := by
    by_contra hge
    rw [List.getElem?_eq_none (by omega)] at hi
    cases hi
  have hi' : (c.objs.map RuleObj.info)[i]? = some r.info := by rw [h.infos, List.getElem?_map, hi]; rfl
  rw [List.getElem?_map] at hi'
  cases ho : c.objs[i]? with
  | none => rw [ho] at hi'; cases hi'
  | some r' =>
    rw [ho] at hi'
    simp only [Option.map_some, Option.some.injEq] at hi'
    refine ⟨r', List.mem_filterMap.2 ⟨i, ?_, ho⟩, hi'⟩
    rw [h.inv, List.mem_filter, h.all]
    refine ⟨List.mem_range.2 hlt, ?_⟩
    unfold enabledB
    rw [ho]
    simp [hi', he]

/-- the statement holds when moreover every rule can be set up, E0002 is in force, and no rule id is itself to be ignored; the
calls the statement speaks of may have failed on an attribute of a template node, which is the only failure passed over -/
theorem C127_clean_partial (objs : List RuleObj) (args : Sources) (all : List String) (regions : List Val) (S : TypeSpecs)
    (beh : RuleObj → Behaviour) (name : Val → String) (mark : Val → MVal) (print : List Match → PyM Unit) (ds : List Decoded)
    (hmark : ∀ t, (mark t).erase = t) (hids : ∀ r ∈ objs, ∀ x : Match, x.rule = r.info → Levelled x)
    (hdict : ∀ d ∈ ds, d.errors = [] → d.template.WF ∧ d.template.truthy = true ∧ ∃ top, d.template = .dict top)
    (hignore : ignoreBadTemplate { args with template := [] } = .ok false)
    (hquiet : ∀ d ∈ ds, ∀ a, setTemplateArgs d.template = .ok a → quiet a) (hdec : ∀ d ∈ ds, ∀ m ∈ d.errors, Levelled m)
    (hdir : ∀ d ∈ ds, getDirectives (mark d.template) = .ok [])
    (hset : ∀ d ∈ ds, ∀ r, (beh r).setUp d.template = .ok ())
    (hcfg : ∀ d ∈ ds, ∀ cfg, ConfiguredBy args d.template cfg →
      isRuleEnabled cfg { id := "E0002" } = .ok true ∧ ∃ mand : List String, cfg.mandatory = mand.map .str)
    (h : runCommand .script objs args (checkWith all regions S beh name mark) print ds = 0) :
    ∀ d ∈ ds, d.errors = [] ∧ ∃ cfg, ConfiguredBy args d.template cfg ∧
      ∀ r ∈ objs, isRuleEnabled cfg r.info = .ok true → ∃ r', r'.info = r.info ∧ FoundNothing S (beh r') d.template := by
  have hsplit : ∀ d ∈ ds, d.errors = [] → ∃ m top, mark d.template = .dict m top ∧ MWF (.dict m top) ∧
      (MVal.dict m top).erase = d.template := by
    intro d hd he
    obtain ⟨hw, _, top, ht⟩ := hdict d hd he
    have hmk := hmark d.template
    cases hm : mark d.template with
    | dict m mtop =>
      rw [hm] at hmk
      exact ⟨m, mtop, rfl, by unfold MWF; rw [hmk]; exact hw, hmk⟩
    | _ => rw [hm, ht] at hmk; cases hmk
  have hz := zero_reached (check := checkWith all regions S beh name mark) (print := print) (objs := objs) (args := args)
    (ds := ds) (by
      intro t c
      cases c with
      | none => simp [checkWith]
      | some c => simp only [checkWith, lintTemplate]; exact runChecks_not_exit0)
    (fun d hd he => (hdict d hd he).2.1) hignore hquiet (by
      intro d hd st0 st1 c ms hst hg hck x hx
      obtain ⟨_, _, _, _, _, _, _, he, _⟩ := getTemplateRules_some hg
      obtain ⟨targs, cfg, h1, h2, hok⟩ := template_coll hst hg
      obtain ⟨hE, mand, hmand⟩ := hcfg d hd c.cfg ⟨targs, cfg, h1, h2, hok.cfg⟩
      obtain ⟨m, top, hm, hw, hmk⟩ := hsplit d hd he
      obtain ⟨raw, r1, _, _, r4⟩ := C127_run S beh c (name d.template) m top hw hE (fun r _ => by rw [hmk]; exact hset d hd r)
      simp only [checkWith, hm] at hck
      obtain ⟨s1, _⟩ := lintTemplate_spec hck hmand (by rw [← hm]; exact hdir d hd) r1
      obtain ⟨r', hr', call, _, hor⟩ := r4 x (s1 x hx)
      rcases hor with ⟨_, _, _, _, _, hs⟩ | ⟨hf, _⟩
      · obtain ⟨r, hr, hi⟩ := active_info hok hr'
        exact hids r hr x (by rw [hs.1, hi])
      · right; right
        exact ⟨'E', "0002".toList, by rw [hf.1]; rfl, .inl rfl⟩)
    hdec h
  intro d hd
  obtain ⟨he, st0, st1, c, hst, hg, hck⟩ := hz d hd
  refine ⟨he, ?_⟩
  obtain ⟨targs, cfg, h1, h2, hok⟩ := template_coll hst hg
  have hcb : ConfiguredBy args d.template c.cfg := ⟨targs, cfg, h1, h2, hok.cfg⟩
  refine ⟨c.cfg, hcb, fun r hr hen => ?_⟩
  obtain ⟨r', hr', hi⟩ := active_of_enabled hok hr hen
  refine ⟨r', hi, fun call hcall => ?_⟩
  obtain ⟨hE, mand, hmand⟩ := hcfg d hd c.cfg hcb
  obtain ⟨m, top, hm, hw, hmk⟩ := hsplit d hd he
  obtain ⟨raw, r1, r2, r3, _⟩ := C127_run S beh c (name d.template) m top hw hE (fun r _ => by rw [hmk]; exact hset d hd r)
  simp only [checkWith, hm] at hck
  obtain ⟨_, s2⟩ := lintTemplate_spec hck hmand (by rw [← hm]; exact hdir d hd) r1
  have hnone : ∀ x, x ∉ raw := by
    intro x hx
    obtain ⟨y, hy, _⟩ := s2 x hx (by
      rintro ⟨⟨l, hl, _⟩, _⟩
      simp [dlookup] at hl)
    cases hy
  rw [← hmk] at hcall
  cases call with
  | ok rs =>
    left
    rcases r2 r' hr' rs hcall with h4 | ⟨_, x, hx, _⟩
    · cases rs with
      | nil => rfl
      | cons pm rest =>
        obtain ⟨x, hx, _⟩ := h4 pm.1 pm.2 List.mem_cons_self
        exact absurd hx (hnone x)
    · exact absurd hx (hnone x)
  | error e =>
    rcases r3 r' hr' e hcall with ⟨s, rfl⟩ | ⟨x, hx, _⟩
    · exact .inr ⟨s, rfl⟩
    · exact absurd hx (hnone x)

/-- the marks of a template read from a text where everything stands at one place -/
def markAll (s : Span) : Val → MVal
  | .none => .none
  | .bool b => .bool b
  | .int i => .int i
  | .flt r => .flt r
  | .str x => .str (some s) x
  | .list xs => .list s (markList xs)
  | .dict kvs => .dict s (markDict kvs)
where
  markList : List Val → List MVal
    | [] => []
    | x :: xs => markAll s x :: markList xs
  markDict : List (Key × Val) → List (MKey × MVal)
    | [] => []
    | (k, v) :: rest => (⟨k, some s⟩, markAll s v) :: markDict rest

theorem erase_markAll (s : Span) (v : Val) : (markAll s v).erase = v := by
  have hl : ∀ xs : List Val, (∀ x ∈ xs, (markAll s x).erase = x) → MVal.eraseList (markAll.markList s xs) = xs := by
    intro xs
    induction xs with
    | nil => intro _; rfl
    | cons x xs ih =>
      intro h
      rw [markAll.markList, MVal.eraseList, h x List.mem_cons_self, ih (fun y hy => h y (List.mem_cons_of_mem _ hy))]
  have hd : ∀ kvs : List (Key × Val), (∀ kv ∈ kvs, (markAll s kv.2).erase = kv.2) →
      MVal.eraseDict (markAll.markDict s kvs) = kvs := by
    intro kvs
    induction kvs with
    | nil => intro _; rfl
    | cons kv kvs ih =>
      intro h
      obtain ⟨k, w⟩ := kv
      rw [markAll.markDict, MVal.eraseDict, h _ List.mem_cons_self, ih (fun y hy => h y (List.mem_cons_of_mem _ hy))]
  induction v using Val.ind with
  | hlist xs ih => rw [markAll, MVal.erase, hl xs ih]
  | hdict kvs ih => rw [markAll, MVal.erase, hd kvs (fun kv h => ih kv h)]
  | _ => simp [markAll, MVal.erase]

/-- the full statement does not hold: when setting up one rule fails, the status is 0 although another one has a finding -/
theorem C127_clean_violated : ¬ C127_clean_statement := by
  intro h
  obtain ⟨_, cfg, ⟨targs, cfg0, h1, h2, rfl⟩, h3⟩ := h [{ info := { id := "E1" } }, { info := { id := "E2" } }] (c50Args [] false []) [] [] ⟨[], []⟩
    (fun r => if r.info.id = "E1" then { whole := some fun _ => .ok [([.str "Resources"], "wrong")] }
      else { setUp := fun _ => .error (.keyError "x") })
    (fun _ => "t") (markAll default) (fun _ => .ok ()) [⟨.dict [(.str "Resources", .none)], []⟩]
    (erase_markAll _)
    (by
      intro r hr x hx
      right; right
      rcases List.mem_cons.1 hr with rfl | hr
      · exact ⟨'E', ['1'], by rw [hx]; rfl, .inl rfl⟩
      · cases List.mem_singleton.1 hr
        exact ⟨'E', ['2'], by rw [hx]; rfl, .inl rfl⟩)
    (by
      intro d hd _
      cases List.mem_singleton.1 hd
      exact ⟨by simp [Val.WF, Val.WFDict], rfl, _, rfl⟩)
    (by decide)
    (by
      intro d hd a ha
      cases List.mem_singleton.1 hd
      have : a = [] := by
        have e : setTemplateArgs (.dict [(.str "Resources", .none)]) = .ok [] := by decide
        rw [e] at ha
        exact (Except.ok.inj ha).symm
      subst this
      intro n _; rfl)
    (by intro d hd m hm; cases List.mem_singleton.1 hd; cases hm)
    (by intro d hd; cases List.mem_singleton.1 hd; decide)
    (by decide) _ List.mem_cons_self
  have e : setTemplateArgs (.dict [(.str "Resources", .none)]) = .ok [] := by decide
  rw [e] at h1
  cases h1
  have h2' : currentCfg { c50Args [] false [] with template := [] } = .ok { incl := [.str "W", .str "E"] } := by decide
  rw [h2'] at h2
  cases h2
  obtain ⟨r', hi, hn⟩ := h3 { info := { id := "E1" } } List.mem_cons_self (by decide)
  rcases hn (.ok [([.str "Resources"], "wrong")]) (.whole (f := fun _ => .ok [([.str "Resources"], "wrong")])
    (by rw [hi]; rfl)) with h | ⟨_, h⟩ <;> cases h

/-! ### rules in force -/

/-- **C127** When the script ends with status 0 and E1012 is in force for a template, every reference in the template is to
something that may be referred to; as in C33, for references of which no proper prefix is declared. -/
theorem C127_references_partial (objs : List RuleObj) (args : Sources) (all : List String) (regions : List Val) (S : TypeSpecs)
    (beh : RuleObj → Behaviour) (name : Val → String) (mark : Val → MVal) (print : List Match → PyM Unit) (ds : List Decoded)
    (hmark : ∀ t, (mark t).erase = t) (hids : ∀ r ∈ objs, ∀ x : Match, x.rule = r.info → Levelled x)
    (hdict : ∀ d ∈ ds, d.errors = [] → d.template.WF ∧ d.template.truthy = true ∧ ∃ top, d.template = .dict top)
    (hignore : ignoreBadTemplate { args with template := [] } = .ok false)
    (hquiet : ∀ d ∈ ds, ∀ a, setTemplateArgs d.template = .ok a → quiet a) (hdec : ∀ d ∈ ds, ∀ m ∈ d.errors, Levelled m)
    (hdir : ∀ d ∈ ds, getDirectives (mark d.template) = .ok [])
    (hset : ∀ d ∈ ds, ∀ r, (beh r).setUp d.template = .ok ())
    (hcfg : ∀ d ∈ ds, ∀ cfg, ConfiguredBy args d.template cfg →
      isRuleEnabled cfg { id := "E0002" } = .ok true ∧ ∃ mand : List String, cfg.mandatory = mand.map .str)
    (rx : String → String → PyM Bool) (hrx : MatchesPrefixes rx)
    (hin : { id := "E1012" } ∈ objs.map RuleObj.info)
    (hbeh : ∀ r, r.info.id = "E1012" → (beh r).whole = some (fun t => refExist rx t (.dict [])))
    (h : runCommand .script objs args (checkWith all regions S beh name mark) print ds = 0)
    (d : Decoded) (hd : d ∈ ds) (hen : ∀ cfg, ConfiguredBy args d.template cfg → isRuleEnabled cfg { id := "E1012" } = .ok true)
    (hsec : SectionsOk d.template) (hstr : ∀ q v, At d.template (q ++ [.str "Ref"]) v → ∃ s, v = .str s)
    (q : Path) (s : String) (href : At d.template (q ++ [.str "Ref"]) (.str s))
    (hpre : ∀ n, Declared d.template n → n.toList <+: s.toList → n = s) : Referable d.template s := by
  obtain ⟨_, cfg, hcb, hr⟩ := C127_clean_partial objs args all regions S beh name mark print ds hmark hids hdict hignore hquiet
    hdec hdir hset hcfg h d hd
  obtain ⟨r, hrm, hri⟩ := List.mem_map.1 hin
  obtain ⟨r', hi, hn⟩ := hr r hrm (by rw [hri]; exact hen cfg hcb)
  obtain ⟨l, h1, h2⟩ := C33_exact_partial rx d.template hrx hsec hstr
  have := hn _ (.whole (hbeh r' (by rw [hi, hri])))
  rw [h1] at this
  rcases this with e | ⟨_, e⟩
  · cases e
    by_contra hnot
    have := (h2 q s href hpre).2 hnot
    cases this
  · cases e

/-- **C127** When the script ends with status 0 and E3004 is in force for a template, no resource of the template depends on
itself, directly or through others; as in C40, for templates without attributes in the texts of `Fn::Sub`. -/
theorem C127_no_cycle_partial (objs : List RuleObj) (args : Sources) (all : List String) (regions : List Val) (S : TypeSpecs)
    (beh : RuleObj → Behaviour) (name : Val → String) (mark : Val → MVal) (print : List Match → PyM Unit) (ds : List Decoded)
    (hmark : ∀ t, (mark t).erase = t) (hids : ∀ r ∈ objs, ∀ x : Match, x.rule = r.info → Levelled x)
    (hdict : ∀ d ∈ ds, d.errors = [] → d.template.WF ∧ d.template.truthy = true ∧ ∃ top, d.template = .dict top)
    (hignore : ignoreBadTemplate { args with template := [] } = .ok false)
    (hquiet : ∀ d ∈ ds, ∀ a, setTemplateArgs d.template = .ok a → quiet a) (hdec : ∀ d ∈ ds, ∀ m ∈ d.errors, Levelled m)
    (hdir : ∀ d ∈ ds, getDirectives (mark d.template) = .ok [])
    (hset : ∀ d ∈ ds, ∀ r, (beh r).setUp d.template = .ok ())
    (hcfg : ∀ d ∈ ds, ∀ cfg, ConfiguredBy args d.template cfg →
      isRuleEnabled cfg { id := "E0002" } = .ok true ∧ ∃ mand : List String, cfg.mandatory = mand.map .str)
    (find : List Edge → Key → Option (List CycleEdge)) (hf : FindsCycles find)
    (hin : { id := "E3004" } ∈ objs.map RuleObj.info)
    (hbeh : ∀ r, r.info.id = "E3004" → (beh r).whole = some (fun t => circularDependency find t (.dict [])))
    (h : runCommand .script objs args (checkWith all regions S beh name mark) print ds = 0)
    (d : Decoded) (hd : d ∈ ds) (hen : ∀ cfg, ConfiguredBy args d.template cfg → isRuleEnabled cfg { id := "E3004" } = .ok true)
    (hshape : GraphShape d.template) (hp : PlainVariables d.template) : ∀ a, ¬ Relation.TransGen (Depends d.template) a a := by
  obtain ⟨_, cfg, hcb, hr⟩ := C127_clean_partial objs args all regions S beh name mark print ds hmark hids hdict hignore hquiet
    hdec hdir hset hcfg h d hd
  obtain ⟨r, hrm, hri⟩ := List.mem_map.1 hin
  obtain ⟨r', hi, hn⟩ := hr r hrm (by rw [hri]; exact hen cfg hcb)
  obtain ⟨l, h1, h2⟩ := C40_reported_iff_partial hf hshape empty_globals hp
  have := hn _ (.whole (hbeh r' (by rw [hi, hri])))
  rw [h1] at this
  rcases this with e | ⟨_, e⟩
  · cases e
    intro a ha
    exact h2.2 ⟨a, ha⟩ rfl
  · cases e

/-- **C127** A rule that found nothing was called on every object of a type it registered for, wherever the object stands below
the properties of a resource, as far as C44 goes: where the traversal follows the declarations. -/
theorem C127_objects_partial {S : TypeSpecs} {b : Behaviour} {t : Val} (hn : FoundNothing S b t)
    {f : Val → Val → String → Path → PyM (List (Path × String))} (hf : b.subProperties = some f)
    {name : Key} {rt : String} {props : List (Key × Val)} (hres : ResourceWith t name rt props) (hw : (Val.dict props).WF)
    {ps : List (Key × PropDecl)} (hps : dlookup rt S.resourceTypes = some ps) (hs : Sane S rt ps)
    (hfo : Followed S rt ps (.dict props) [.str "Resources", name, .str "Properties"])
    {ty : String} {d : TypeDecl} (hd : typeOf S rt ty = some d) (hreg : registeredName rt ty ∈ b.subTypes)
    {p : Path} {v : Val} (ho : ObjectOf S rt ps (.dict props) [.str "Resources", name, .str "Properties"] ty p v) :
    f t v (registeredName rt ty) p = .ok [] ∨ ∃ s, f t v (registeredName rt ty) p = .error (.templateAttributeError s) :=
  hn _ (.subProperties (v := ⟨p, v, registeredName rt ty⟩) hf hres (C44_complete_partial hw hps hs hfo hd ho) hreg)

/-- a template with a resource whose property refers to the other resource -/
def cleanTemplate : Val := .dict [(.str "Resources", .dict [
  (.str "A", .dict [(.str "Type", .str "T")]),
  (.str "B", .dict [(.str "Type", .str "T"), (.str "Properties", .dict [(.str "P", .dict [(.str "Ref", .str "A")])])])])]

theorem cleanTemplate_args : setTemplateArgs cleanTemplate = .ok [] := by decide

/-- the rule of the references alone -/
def refsOnly (r : RuleObj) : Behaviour :=
  if r.info.id = "E1012" then { whole := some fun t => refExist exRx t (.dict []) } else {}

-- the hypotheses of the theorems about the status are met
example : runCommand .script [{ info := { id := "E1012" } }] (c50Args [] false [])
    (checkWith [] [] ⟨[], []⟩ refsOnly (fun _ => "t") (markAll default)) (fun _ => .ok ()) [⟨cleanTemplate, []⟩] = 0 := by
  decide +kernel
example : getDirectives (markAll default cleanTemplate) = .ok [] := by decide +kernel
example : cleanTemplate.WF ∧ cleanTemplate.truthy = true := by
  refine ⟨?_, rfl⟩
  simp [cleanTemplate, Val.WF, Val.WFDict]
example : ignoreBadTemplate { c50Args [] false [] with template := [] } = .ok false := by decide
example (cfg : Cfg) (h : ConfiguredBy (c50Args [] false []) cleanTemplate cfg) :
    isRuleEnabled cfg { id := "E0002" } = .ok true ∧ isRuleEnabled cfg { id := "E1012" } = .ok true ∧
      ∃ mand : List String, cfg.mandatory = mand.map .str := by
  obtain ⟨targs, cfg0, h1, h2, rfl⟩ := h
  rw [cleanTemplate_args] at h1
  cases h1
  have h2' : currentCfg { c50Args [] false [] with template := [] } = .ok { incl := [.str "W", .str "E"] } := by decide
  rw [h2'] at h2
  cases h2
  exact ⟨by decide, by decide, [], rfl⟩
-- and a reference to nothing changes the status
example : runCommand .script [{ info := { id := "E1012" } }] (c50Args [] false [])
    (checkWith [] [] ⟨[], []⟩ refsOnly (fun _ => "t") (markAll default)) (fun _ => .ok ())
    [⟨.dict [(.str "Resources", .dict [(.str "A", .dict [(.str "Type", .str "T"), (.str "Properties",
      .dict [(.str "P", .dict [(.str "Ref", .str "X")])])])])], []⟩] = 2 := by
  decide +kernel

end CfnLint
