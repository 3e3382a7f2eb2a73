import Verif.Props.ExactLimits
import Verif.Props.Closed
import Verif.Props.BoundsClosed
/-
Property C151: status 0 spelt out for forty-five rules: those of C150 with the rules on what names refer to: references, conditions, parameters and
mappings that are not used, and circular dependencies.
-/
namespace CfnLint

open Spec

namespace Spec

/-- an ordinary template in which the functions that name something have the documented forms, and no reference merely begins with a declared name -/
structure LinkShape (t : Val) : Prop where
  ordinary : OrdinaryTemplate t
  sections : SectionsOk t
  conditions : CondShape t
  graph : GraphShape t
  refs : ∀ q v, At t (q ++ [.str "Ref"]) v → ∃ s, v = .str s
  prefixes : ∀ q s n, At t (q ++ [.str "Ref"]) (.str s) → Declared t n → n.toList <+: s.toList → n = s
  subs : SubShape t
  maps : FindInMapShape t
  shadow : NoShadow t t
  plain : PlainVariables t

/-- every name in the template refers to something, everything that is declared is used, and no resource needs itself -/
structure Linked (t : Val) : Prop where
  refs : ∀ q s, At t (q ++ [.str "Ref"]) (.str s) → Referable t s
  conditions : ∀ c, (∃ q, UsesCond t c q) → DefinesCond t c
  conditionsUsed : ∀ c, DefinesCond t c → ∃ q, UsesCond t c q
  parametersUsed : ∀ c v, At t [.str "Parameters", .str c] v → UsesParam t c
  mappingsUsed : ∀ c v, At t [.str "Mappings", .str c] v → UsesMap t c ∨ ComputedMap t
  acyclic : ∀ a, ¬ Relation.TransGen (Depends t) a a

end Spec

/-- the six rules: functions/RefExist.py, conditions/Exists.py, conditions/Used.py, parameters/Used.py, mappings/Used.py and
resources/CircularDependency.py; the messages are arbitrary -/
def links (rx : String → String → PyM Bool) (find : List Edge → Key → Option (List CycleEdge)) (msg : Path → String) : List WholeCheck :=
  [⟨"E1012", fun t => refExist rx t (.dict []), fun t => ∀ q s, At t (q ++ [.str "Ref"]) (.str s) → Referable t s⟩,
   ⟨"E8002", fun t => withText Prod.fst (fun x => msg x.1) (undefinedConditions t (.dict [])), fun t => ∀ c, (∃ q, UsesCond t c q) → DefinesCond t c⟩,
   ⟨"W8001", fun t => withText Prod.fst (fun x => msg x.1) (unusedConditions t (.dict [])), fun t => ∀ c, DefinesCond t c → ∃ q, UsesCond t c q⟩,
   ⟨"W2001", fun t => withText Prod.fst (fun x => msg x.1) (unusedParameters t t), fun t => ∀ c v, At t [.str "Parameters", .str c] v → UsesParam t c⟩,
   ⟨"W7001", fun t => withText Prod.fst (fun x => msg x.1) (unusedMappings t t), fun t => ∀ c v, At t [.str "Mappings", .str c] v → UsesMap t c ∨ ComputedMap t⟩,
   ⟨"E3004", fun t => circularDependency find t (.dict []), fun t => ∀ a, ¬ Relation.TransGen (Depends t) a a⟩]

theorem tells_of_list {r : PyM (List (Path × String))} {Q : Prop} (h : ∃ l, r = .ok l ∧ (l = [] ↔ Q)) :
    (r = .ok [] ∨ ∃ s, r = .error (.templateAttributeError s)) ↔ Q := by
  obtain ⟨l, rfl, hl⟩ := h
  rw [← hl]
  constructor
  · rintro (e | ⟨s, e⟩)
    · injection e
    · cases e
  · rintro rfl
    exact .inl rfl

theorem ordinary_text {top : List (Key × Val)} (h : SectionsOrdinary (.dict top)) {s : String} (hs : s ∈ ["Parameters", "Resources", "Mappings", "Outputs"]) :
    TextSection (.dict top) s :=
  ⟨⟨top, rfl⟩, fun v hat => by
    obtain ⟨kvs, e, hk⟩ := h s hs v hat
    exact ⟨kvs, e, fun k w hm => (hk k w hm).1⟩⟩

/-- **C151** Among templates of this shape, each of the six rules tells exactly when a template is not right for it. -/
theorem C151_tells {rx : String → String → PyM Bool} (hrx : MatchesPrefixes rx) {find : List Edge → Key → Option (List CycleEdge)} (hfind : FindsCycles find)
    (msg : Path → String) : ∀ c ∈ links rx find msg, c.TellsOn LinkShape := by
  intro c hc
  simp only [links, List.mem_cons, List.not_mem_nil, or_false] at hc
  rcases hc with rfl | rfl | rfl | rfl | rfl | rfl <;> intro top hw hD
  · obtain ⟨l, h1, h2⟩ := C33_exact_partial rx (.dict top) hrx hD.sections hD.refs
    obtain ⟨l', h1', h3⟩ := C33_reported_partial rx (.dict top) (.dict []) hrx hD.sections (by
      rintro q v (hat | hat)
      · obtain ⟨s, rfl⟩ := hD.refs q v hat
        exact ⟨fun i e => (by cases e), fun b e => (by cases e)⟩
      · exact absurd ⟨⟨q, rfl⟩, hat⟩ globals_empty)
    rw [h1] at h1'
    cases h1'
    refine tells_of_list ⟨l, h1, fun e q s hat => ?_, fun h => ?_⟩
    · by_contra hc
      have := (h2 q s hat fun n hn hp => hD.prefixes q s n hat hn hp).2 hc
      rw [e] at this
      cases this
    · refine List.eq_nil_iff_forall_not_mem.2 fun f hf => ?_
      obtain ⟨q, s, hat | hat, -, rfl⟩ := (h3 f).1 hf
      · exact (h2 q s hat fun n hn hp => hD.prefixes q s n hat hn hp).1 hf (h q s hat)
      · exact globals_empty ⟨⟨q, rfl⟩, hat⟩
  · obtain ⟨out, h1, -, h2, h3⟩ := C54_names_partial _ hw hD.conditions
    refine (tells_of_exact ⟨out, h1, fun x => Iff.rfl⟩).trans ⟨fun h c hu => ?_, fun h x hx => ?_⟩
    · by_contra hc
      obtain ⟨p, hp⟩ := (h2 c).2 ⟨hu, hc⟩
      exact h _ hp
    · obtain ⟨c, q, e, -, -⟩ := h3 x.1 x.2 hx
      obtain ⟨hu, hn⟩ := (h2 c).1 ⟨x.1, by rw [← e]; exact hx⟩
      exact hn (h c hu)
  · obtain ⟨out, h1, -, h2⟩ := C53_exact_partial _ hw hD.conditions
    refine (tells_of_exact ⟨out, h1, fun x => h2 x.1 x.2⟩).trans ⟨fun h c hdef => ?_, ?_⟩
    · by_contra hc
      exact h ([.str "Conditions", .str c], .str c) ⟨c, rfl, rfl, hdef, hc⟩
    · rintro h x ⟨c, -, -, hdef, hn⟩
      exact hn (h c hdef)
  · obtain ⟨out, h1, -, h2⟩ := C57_exact_partial _ _ hw hw hD.subs (ordinary_text hD.ordinary.sections (by simp)) hD.shadow
    refine (tells_of_exact ⟨out, h1, fun x => h2 x.1 x.2⟩).trans ⟨fun h c v hat => ?_, ?_⟩
    · by_contra hc
      exact h ([.str "Parameters", .str c], .str c) ⟨c, v, rfl, rfl, hat, hc⟩
    · rintro h x ⟨c, v, e, -, hat, hn⟩
      rw [e] at hat
      exact hn (h c v hat)
  · obtain ⟨out, h1, -, h2⟩ := C58_exact_partial _ _ hw hw hD.maps (ordinary_text hD.ordinary.sections (by simp))
    refine (tells_of_exact ⟨out, h1, fun x => h2 x.1 x.2⟩).trans ⟨fun h c v hat => ?_, ?_⟩
    · by_contra hc
      push Not at hc
      exact h ([.str "Mappings", .str c], .str c) ⟨c, v, rfl, rfl, hat, hc.1, hc.2⟩
    · rintro h x ⟨c, v, e, -, hat, hn, hn'⟩
      rw [e] at hat
      exact (h c v hat).elim hn hn'
  · obtain ⟨ms, h1, h2⟩ := C40_reported_iff_partial hfind hD.graph empty_globals hD.plain
    refine tells_of_list ⟨ms, h1, ?_⟩
    show ms = [] ↔ ∀ a, ¬ Relation.TransGen (Depends (.dict top)) a a
    rw [← not_exists, ← h2, not_not]

/-- the forty-five rules -/
def linkChecks (rx : String → String → PyM Bool) (find : List Edge → Key → Option (List CycleEdge)) (msg : Path → String) : List WholeCheck :=
  boundsChecks msg ++ links rx find msg

/-- the forty-five rules and nothing else -/
def linkBehaviour (rx : String → String → PyM Bool) (find : List Edge → Key → Option (List CycleEdge)) (msg : Path → String) (r : RuleObj) : Behaviour :=
  { whole := ((linkChecks rx find msg).find? (fun c => c.id == r.info.id)).map WholeCheck.rule }

/-- the ids of the forty-five rules -/
def linkIds : List String := boundsIds ++ ["E1012", "E8002", "W8001", "W2001", "W7001", "E3004"]

section Links

variable {rx : String → String → PyM Bool} {find : List Edge → Key → Option (List CycleEdge)} {msg : Path → String}

theorem link_ids : (linkChecks rx find msg).map WholeCheck.id = linkIds := rfl

theorem link_behave : BehaveAs (linkChecks rx find msg) (linkBehaviour rx find msg) := by
  intro r c hc hid
  refine ⟨?_, rfl, rfl⟩
  simp only [linkBehaviour, hid]
  rw [find_first (by rw [link_ids]; decide) hc]
  rfl

theorem linked_iff (t : Val) : (∀ c ∈ links rx find msg, c.right t) ↔ Linked t := by
  simp only [links, List.forall_mem_cons]
  constructor
  · rintro ⟨h1, h2, h3, h4, h5, h6, -⟩
    exact ⟨h1, h2, h3, h4, h5, h6⟩
  · rintro ⟨h1, h2, h3, h4, h5, h6⟩
    exact ⟨h1, h2, h3, h4, h5, h6, fun _ h => by cases h⟩

/-- **C151** With the forty-five rules as they stand, and templates of this shape that were read and configure nothing, the script ends with status 0
exactly if all templates are well made, their sections well formed, all of it within bounds, and the names linked. -/
theorem C151_linked (hrx : MatchesPrefixes rx) (hfind : FindsCycles find) (S : TypeSpecs) (name : Val → String) {ds : List Decoded}
    (hd : ∀ d ∈ ds, ReadPlain d) (hD : ∀ d ∈ ds, LinkShape d.template) :
    runCommand .script (withIds linkIds) (c50Args [] false []) (checkWith [] [] S (linkBehaviour rx find msg) name (markAll default)) (fun _ => .ok ()) ds = 0 ↔
      ∀ d ∈ ds, (WellMade d.template ∧ SectionsFormed d.template ∧ WithinBounds d.template) ∧ Linked d.template := by
  have hready := plain_ready (ids := linkIds) (beh := linkBehaviour rx find msg) (ds := ds) (by decide) (fun r t => rfl) hd
  rw [C149_status hready link_behave
    (by
      intro c hc
      rcases List.mem_append.1 hc with hc | hc
      · rcases List.mem_append.1 hc with hc | hc
        · rcases List.mem_append.1 hc with hc | hc
          · exact tells_on (C147_tells msg c hc) LinkShape
          · exact fun top hw hD => C149_tells msg c hc top hw hD.ordinary.sections
        · exact fun top hw hD => C150_tells msg c hc top hw hD.ordinary
      · exact C151_tells hrx hfind msg c hc)
    (by
      intro r hr
      obtain ⟨i, hi, rfl⟩ := List.mem_map.1 hr
      rw [← link_ids (rx := rx) (find := find) (msg := msg)] at hi
      obtain ⟨c, hc, rfl⟩ := List.mem_map.1 hi
      exact ⟨c, hc, rfl⟩)
    (by
      intro r hr x hx
      obtain ⟨i, hi, rfl⟩ := List.mem_map.1 hr
      obtain ⟨c, cs, e, hcs⟩ := severity_ids (ids := linkIds) (by decide) i hi
      rcases hcs with rfl | rfl
      · exact .inr (.inr ⟨'E', cs, by rw [hx]; exact e, .inl rfl⟩)
      · exact .inr (.inl ⟨'W', cs, by rw [hx]; exact e, .inl rfl⟩))
    (fun d h => by obtain ⟨kv, top, ht⟩ := (hd d h).object; rw [ht]; rfl) (by decide)
    (by
      intro d h a ha
      rw [(hd d h).args] at ha
      cases ha
      intro n _
      rfl)
    (fun d h => (hd d h).directives)
    (fun d h cfg hc => by cases plain_configured (hd d h).args hc; exact ⟨[], rfl⟩)
    (fun r r' e => by unfold linkBehaviour; rw [e]) hD]
  refine forall₂_congr fun d h => ?_
  rw [← wellMade_iff msg, ← sectionsFormed_iff msg, ← withinBounds_iff msg, ← linked_iff (rx := rx) (find := find) (msg := msg), ← and_assoc,
    ← List.forall_mem_append, ← List.forall_mem_append, ← List.forall_mem_append]
  refine forall₂_congr fun c hc => ⟨fun hr => hr ?_, fun hr _ => hr⟩
  have hi : c.id ∈ linkIds := by rw [← link_ids (rx := rx) (find := find) (msg := msg)]; exact List.mem_map_of_mem hc
  refine rules_inForce hi (hd d h).args ?_
  have : ∀ i ∈ linkIds, isRuleEnabled { incl := addDefaults [.str "W", .str "E"] } { id := i } = .ok true := by decide
  exact this _ hi

end Links

/-- a template with a parameter and two resources, one of which refers to the other; the first reference is given -/
def linkedWith (name : String) : Val :=
  .dict [(.str "Parameters", .dict [(.str "P", .dict [(.str "Type", .str "String")])]),
    (.str "Resources", .dict [(.str "R", .dict [(.str "Type", .str "AWS::S3::Bucket"), (.str "Properties", .dict [(.str "BucketName", .dict [(.str "Ref", .str name)])])]),
      (.str "S", .dict [(.str "Type", .str "AWS::S3::BucketPolicy"), (.str "Properties", .dict [(.str "Bucket", .dict [(.str "Ref", .str "R")])])])])]

theorem linkedWith_wf (name : String) : (linkedWith name).WF := by simp [linkedWith, Val.WF, Val.WFDict]

theorem linkedWith_read {name : String} (h : name ∈ ["P", "AWS::Region"]) : ReadPlain ⟨linkedWith name, []⟩ := by
  simp only [List.mem_cons, List.not_mem_nil, or_false] at h
  rcases h with rfl | rfl <;>
    exact ⟨rfl, linkedWith_wf _, ⟨_, _, rfl⟩, by decide +kernel, by decide +kernel⟩

theorem linkedWith_section {name : String} {k : Key} {v : Val} (h : At (linkedWith name) [k] v) :
    (k = .str "Parameters" ∧ v = .dict [(.str "P", .dict [(.str "Type", .str "String")])]) ∨
    (k = .str "Resources" ∧ v = .dict [(.str "R", .dict [(.str "Type", .str "AWS::S3::Bucket"), (.str "Properties", .dict [(.str "BucketName", .dict [(.str "Ref", .str name)])])]),
      (.str "S", .dict [(.str "Type", .str "AWS::S3::BucketPolicy"), (.str "Properties", .dict [(.str "Bucket", .dict [(.str "Ref", .str "R")])])])]) := by
  have := at_dict_one.1 h
  simpa only [List.mem_cons, Prod.mk.injEq, List.not_mem_nil, or_false] using this

theorem linkedWith_calls {name key : String} {q : Path} {v : Val} (h : At (linkedWith name) (q ++ [.str key]) v) :
    (q ++ [.str key], v) ∈ searchDeepKeys key (linkedWith name) (.dict []) := ((C27_search_partial key _ (linkedWith_wf _)).1 _ _).2 ⟨h, q, rfl⟩

theorem linkedWith_ref {name : String} {q : Path} {v : Val} (h : At (linkedWith name) (q ++ [.str "Ref"]) v) : v = .str name ∨ v = .str "R" := by
  have h1 := linkedWith_calls h
  have h2 : searchDeepKeys "Ref" (linkedWith name) (.dict []) =
      [([.str "Resources", .str "R", .str "Properties", .str "BucketName", .str "Ref"], .str name),
       ([.str "Resources", .str "S", .str "Properties", .str "Bucket", .str "Ref"], .str "R")] := rfl
  rw [h2] at h1
  simp only [List.mem_cons, Prod.mk.injEq, List.not_mem_nil, or_false] at h1
  exact h1.imp And.right And.right

theorem linkedWith_none {name key : String} (hk : key ∈ ["Fn::If", "Fn::Sub", "Fn::FindInMap", "Fn::GetAtt"]) {q : Path} {v : Val} :
    ¬ At (linkedWith name) (q ++ [.str key]) v := by
  intro h
  have h1 := linkedWith_calls h
  simp only [List.mem_cons, List.not_mem_nil, or_false] at hk
  rcases hk with rfl | rfl | rfl | rfl <;> exact List.not_mem_nil h1

theorem linkedWith_declared {name n : String} (h : Declared (linkedWith name) n) : n = "P" ∨ n = "R" ∨ n = "S" ∨ n ∈ pseudoNames := by
  cases h with
  | parameter h =>
    obtain ⟨a, h1, h⟩ := at_cons.1 h
    obtain ⟨b, h2, -⟩ := at_cons.1 h
    rcases linkedWith_section h1 with ⟨-, rfl⟩ | ⟨e, -⟩
    · have := at_dict_one.1 h2
      simp at this
      exact .inl this.1
    · simp at e
  | resource h _ _ =>
    obtain ⟨a, h1, h⟩ := at_cons.1 h
    obtain ⟨b, h2, -⟩ := at_cons.1 h
    rcases linkedWith_section h1 with ⟨e, -⟩ | ⟨-, rfl⟩
    · simp at e
    · have := at_dict_one.1 h2
      simp at this
      rcases this with h | h
      · exact .inr (.inl h.1)
      · exact .inr (.inr (.inl h.1))
  | pseudo h => exact .inr (.inr (.inr h))

theorem linkedWith_shape {name : String} (h : name ∈ ["P", "AWS::Region"]) : LinkShape (linkedWith name) where
  ordinary := by
    refine ⟨fun s hs v hat => ?_, fun v hat => ?_, fun v hat => ?_⟩
    · rcases linkedWith_section hat with ⟨-, rfl⟩ | ⟨-, rfl⟩
      · refine ⟨_, rfl, fun k w hk => ?_⟩; cases List.mem_singleton.1 hk; exact ⟨⟨_, rfl⟩, _, rfl⟩
      · refine ⟨_, rfl, fun k w hk => ?_⟩
        simp only [List.mem_cons, Prod.mk.injEq, List.not_mem_nil, or_false] at hk
        rcases hk with ⟨rfl, rfl⟩ | ⟨rfl, rfl⟩ <;> exact ⟨⟨_, rfl⟩, _, rfl⟩
    · rcases linkedWith_section hat with ⟨e, -⟩ | ⟨e, -⟩ <;> simp at e
    · rcases linkedWith_section hat with ⟨e, -⟩ | ⟨e, -⟩ <;> simp at e
  sections := by
    refine ⟨linkedWith_wf _, ⟨_, rfl⟩, fun v hat => ?_, fun v hat => ?_⟩
    · rcases linkedWith_section hat with ⟨-, rfl⟩ | ⟨e, -⟩
      · refine ⟨_, rfl, fun kv hk => ?_⟩
        cases List.mem_singleton.1 hk
        exact ⟨⟨"P", rfl, by unfold PlainName; decide⟩, _, rfl⟩
      · simp at e
    · rcases linkedWith_section hat with ⟨e, -⟩ | ⟨-, rfl⟩
      · simp at e
      · refine ⟨_, rfl, fun kv hk => ?_⟩
        simp only [List.mem_cons, List.not_mem_nil, or_false] at hk
        rcases hk with rfl | rfl
        · exact ⟨⟨"R", rfl, by unfold PlainName; decide⟩, _, rfl, fun ty hty => by simp at hty; exact ⟨_, hty⟩⟩
        · exact ⟨⟨"S", rfl, by unfold PlainName; decide⟩, _, rfl, fun ty hty => by simp at hty; exact ⟨_, hty⟩⟩
  conditions := by
    refine ⟨⟨_, rfl⟩, fun p v hat => absurd hat (linkedWith_none (by simp)), fun v hat => ?_, fun v hat => ?_, fun r v hat _ => ?_, fun v hat => ?_⟩
    · rcases linkedWith_section hat with ⟨e, -⟩ | ⟨e, -⟩ <;> simp at e
    · rcases linkedWith_section hat with ⟨e, -⟩ | ⟨-, rfl⟩
      · simp at e
      · exact ⟨_, rfl⟩
    · obtain ⟨a, h1, h2⟩ := at_cons.1 hat
      rcases linkedWith_section h1 with ⟨e, -⟩ | ⟨-, rfl⟩
      · simp at e
      · have := at_dict_one.1 h2
        simp only [List.mem_cons, Prod.mk.injEq, List.not_mem_nil, or_false] at this
        rcases this with ⟨-, rfl⟩ | ⟨-, rfl⟩ <;> exact ⟨_, at_dict_one.2 List.mem_cons_self, by simp⟩
    · rcases linkedWith_section hat with ⟨e, -⟩ | ⟨e, -⟩ <;> simp at e
  graph := by
    refine ⟨linkedWith_wf _, ⟨_, rfl⟩, fun v hat => ?_, ?_, ?_, ?_⟩
    · rcases linkedWith_section hat with ⟨e, -⟩ | ⟨-, rfl⟩
      · simp at e
      · refine ⟨_, rfl, fun kv hk => ?_⟩
        simp only [List.mem_cons, List.not_mem_nil, or_false] at hk
        rcases hk with rfl | rfl <;> exact ⟨_, _, rfl⟩
    · rintro a v ⟨p, hat⟩
      rcases linkedWith_ref (q := .str "Resources" :: a :: p) hat with rfl | rfl <;> exact ⟨_, rfl⟩
    · rintro a x y ⟨p, hat⟩
      exact absurd hat (linkedWith_none (q := .str "Resources" :: a :: p) (by simp))
    · rintro a v ⟨p, hat⟩
      exact absurd hat (linkedWith_none (q := .str "Resources" :: a :: p) (by simp))
  refs := fun q v hat => by rcases linkedWith_ref hat with rfl | rfl <;> exact ⟨_, rfl⟩
  prefixes := by
    intro q s n hat hn hp
    have hs : s ∈ ["P", "AWS::Region", "R"] := by
      simp only [List.mem_cons, List.not_mem_nil, or_false] at h ⊢
      rcases linkedWith_ref hat with e | e
      · cases e
        rcases h with h | h
        · exact .inl h
        · exact .inr (.inl h)
      · cases e
        exact .inr (.inr rfl)
    have hn' : n ∈ ["P", "R", "S"] ++ pseudoNames := by
      rcases linkedWith_declared hn with rfl | rfl | rfl | hn
      · simp
      · simp
      · simp
      · exact List.mem_append_right _ hn
    have : ∀ s ∈ ["P", "AWS::Region", "R"], ∀ n ∈ ["P", "R", "S"] ++ pseudoNames, n.toList <+: s.toList → n = s := by decide +kernel
    exact this s hs n hn' hp
  subs := fun q v hat => absurd hat (linkedWith_none (by simp))
  maps := fun q v hat => absurd hat (linkedWith_none (by simp))
  shadow := fun q s m k w hat _ => absurd hat (linkedWith_none (by simp))
  plain := by
    rintro a s v ⟨p, hat⟩
    exact absurd hat (linkedWith_none (q := .str "Resources" :: a :: p) (by simp))

/-- where the parameter is not referred to, the status is not 0 -/
example : Linked (linkedWith "P") ∧
    ¬ ((WellMade (linkedWith "AWS::Region") ∧ SectionsFormed (linkedWith "AWS::Region") ∧ WithinBounds (linkedWith "AWS::Region")) ∧ Linked (linkedWith "AWS::Region")) := by
  have key : ∀ name ∈ ["P", "AWS::Region"], (((WellMade (linkedWith name) ∧ SectionsFormed (linkedWith name) ∧ WithinBounds (linkedWith name)) ∧ Linked (linkedWith name)) ↔
      runCommand .script (withIds linkIds) (c50Args [] false [])
        (checkWith [] [] ⟨[], []⟩ (linkBehaviour exRx exFind fun _ => "m") (fun _ => "t") (markAll default)) (fun _ => .ok ()) [⟨linkedWith name, []⟩] = 0) := by
    intro name hp
    rw [C151_linked exRx_ok exFind_ok ⟨[], []⟩ (fun _ => "t") (ds := [⟨linkedWith name, []⟩]) (fun d h => by cases List.mem_singleton.1 h; exact linkedWith_read hp)
      (fun d h => by cases List.mem_singleton.1 h; exact linkedWith_shape hp)]
    simp
  exact ⟨((key "P" (by simp)).2 (by decide +kernel)).2, fun h => absurd ((key "AWS::Region" (by simp)).1 h) (by decide +kernel)⟩

end CfnLint
