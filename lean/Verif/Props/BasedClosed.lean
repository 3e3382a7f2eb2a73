import Verif.Model.BasedTables
import Verif.Props.GroupRules
import Verif.Props.BasedOn
import Verif.Props.Password
import Verif.Props.Shape
/-
Property C133: what status 0 says of properties that are required or unwanted because of the value of another property, when E3017 and E3018 are in
force; and which values the expressions of the shipped table are about.
-/
namespace CfnLint

open Spec

namespace Spec

/-- the name of a resource of one of the services, in the first line of the text -/
def ArnOf (services : List String) (x : String) : Prop :=
  ∃ m svc r, '\n' ∉ m ∧ svc ∈ services ∧ x.toList = "arn:aws".toList ++ (m ++ (':' :: (svc.toList ++ (':' :: r))))

/-- one line in which the other text does not occur -/
def LineFree (w : String) (x : String) : Prop := MaybeBreak (fun l => '\n' ∉ l ∧ ¬ w.toList <:+: l) x

end Spec

/-! ### the expressions -/

theorem matchesFront_iff {r : Rx} {s : String} : r.matchesFront s = true ↔ ∃ w u, s.toList = w ++ u ∧ Lang r w := by
  simp only [Rx.matchesFront, Bool.not_eq_true', List.isEmpty_eq_false_iff_exists_mem]
  constructor
  · rintro ⟨u, hu⟩
    obtain ⟨w, h1, h2⟩ := mem_rest.1 hu
    exact ⟨w, u, h1, h2⟩
  · rintro ⟨w, u, h1, h2⟩
    exact ⟨u, mem_rest.2 ⟨w, h1, h2⟩⟩

/-- **C133** the texts an expression without anything special is about are those that begin with it -/
theorem C133_begins (w x : String) : (Rx.word w.toList).matchesFront x = true ↔ Begins w x := by
  rw [matchesFront_iff]
  constructor
  · rintro ⟨v, u, h, hl⟩
    rw [lang_word] at hl
    subst hl
    exact ⟨u, h.symm⟩
  · rintro ⟨u, h⟩
    exact ⟨_, u, h.symm, lang_word.2 rfl⟩

/-- **C133** the streams: the text names a resource of Kinesis, Kafka or DynamoDB -/
theorem C133_stream (x : String) : regexStreamArn.matchesFront x = true ↔ ArnOf ["kinesis", "kafka", "dynamodb"] x := by
  rw [matchesFront_iff]
  simp only [regexStreamArn, lang_seq, lang_alt, lang_word, lang_chr, lang_anyStar]
  constructor
  · rintro ⟨w, u, h, a, b, rfl, ⟨m, c, hm, ⟨d, e, rfl, ⟨svc, f, hs, ⟨g, k, rfl, hk, rfl⟩, rfl⟩, rfl⟩, rfl⟩, rfl⟩
    refine ⟨m, String.ofList svc, k ++ u, hm, ?_, ?_⟩
    · rcases hs with rfl | rfl | rfl <;> simp
    · simp [h]
  · rintro ⟨m, svc, r, hm, hs, h⟩
    refine ⟨_, r, ?_, "arn:aws".toList, _, rfl, ⟨m, _, hm, ⟨[':'], _, rfl, ⟨svc.toList, _, ?_, ⟨[':'], [], rfl, by simp, rfl⟩, rfl⟩, rfl⟩, rfl⟩, rfl⟩
    · simp [h]
    · simp only [List.mem_cons, List.not_mem_nil, or_false] at hs
      rcases hs with rfl | rfl | rfl <;> simp

/-- **C133** the queues: the text names a resource of SQS -/
theorem C133_queue (x : String) : regexQueueArn.matchesFront x = true ↔ ArnOf ["sqs"] x := by
  rw [matchesFront_iff]
  simp only [regexQueueArn, lang_seq, lang_word, lang_anyStar]
  constructor
  · rintro ⟨w, u, h, a, b, rfl, ⟨m, c, hm, ⟨d, e, rfl, he, rfl⟩, rfl⟩, rfl⟩
    exact ⟨m, "sqs", e ++ u, hm, by simp, by simp [h]⟩
  · rintro ⟨m, svc, r, hm, hs, h⟩
    simp only [List.mem_cons, List.not_mem_nil, or_false] at hs
    subst hs
    exact ⟨_, r, by simp [h], "arn:aws".toList, _, rfl, ⟨m, _, hm, ⟨":sqs:".toList, [], rfl, by simp, rfl⟩, rfl⟩, rfl⟩

/-- **C133** the engines: any text that begins with `aurora`; the two longer names add nothing -/
theorem C133_aurora (x : String) : regexAurora.matchesFront x = true ↔ Begins "aurora" x := by
  rw [matchesFront_iff]
  simp only [regexAurora, lang_alt, lang_word]
  constructor
  · rintro ⟨w, u, h, rfl | rfl | rfl⟩
    · exact ⟨u, h.symm⟩
    · exact ⟨"-mysql".toList ++ u, by rw [h]; rfl⟩
    · exact ⟨"-postgresql".toList ++ u, by rw [h]; rfl⟩
  · rintro ⟨u, h⟩
    exact ⟨_, u, h.symm, .inl rfl⟩

theorem lineWithout_free {w : List Char} (hw : '\n' ∉ w) (hne : w ≠ []) : ∀ s : List Char,
    lineWithout w s = true ↔ ∃ u, ('\n' ∉ u ∧ ¬ w <:+: u) ∧ (s = u ∨ s = u ++ ['\n'])
  | [] => by
    simp only [lineWithout, true_iff]
    exact ⟨[], ⟨by simp, by simpa using hne⟩, .inl rfl⟩
  | c :: s => by
    have hbreak : ∀ {u : List Char}, w <+: u ++ ['\n'] → w <+: u := by
      intro u h
      rcases List.prefix_concat_iff.1 h with e | e
      · exact absurd (by rw [e]; simp) hw
      · exact e
    simp only [lineWithout, Bool.or_eq_true, Bool.and_eq_true, decide_eq_true_eq, Bool.not_eq_true', List.isEmpty_iff, lineWithout_free hw hne s]
    constructor
    · rintro (⟨rfl, rfl⟩ | ⟨⟨hc, hp⟩, u, ⟨h1, h2⟩, h3⟩)
      · exact ⟨[], ⟨by simp, by simpa using hne⟩, .inr rfl⟩
      · have hnp : ¬ w <+: c :: s := fun h => by
          rw [← List.isPrefixOf_iff_prefix, hp] at h
          cases h
        refine ⟨c :: u, ⟨by simp [h1, Ne.symm hc], ?_⟩, ?_⟩
        · rw [List.infix_cons_iff]
          rintro (h | h)
          · apply hnp
            rcases h3 with rfl | rfl
            · exact h
            · exact h.trans (List.prefix_append (c :: u) ['\n'])
          · exact h2 h
        · rcases h3 with rfl | rfl
          · exact .inl rfl
          · exact .inr rfl
    · rintro ⟨u, ⟨h1, h2⟩, h3⟩
      cases u with
      | nil =>
        rcases h3 with h3 | h3
        · cases h3
        · simp only [List.nil_append, List.cons.injEq] at h3
          exact .inl h3
      | cons d u =>
        refine .inr ?_
        have hcd : c = d ∧ (s = u ∨ s = u ++ ['\n']) := by
          rcases h3 with h3 | h3
          · simp only [List.cons.injEq] at h3
            exact ⟨h3.1, .inl h3.2⟩
          · simp only [List.cons_append, List.cons.injEq] at h3
            exact ⟨h3.1, .inr h3.2⟩
        obtain ⟨rfl, hs⟩ := hcd
        rw [List.infix_cons_iff, not_or] at h2
        simp only [List.mem_cons, not_or] at h1
        refine ⟨⟨Ne.symm h1.1, ?_⟩, u, ⟨h1.2, h2.2⟩, hs⟩
        cases hp : w.isPrefixOf (c :: s) with
        | false => rfl
        | true =>
          exfalso
          rw [List.isPrefixOf_iff_prefix] at hp
          apply h2.1
          rcases hs with rfl | rfl
          · exact hp
          · exact hbreak (u := c :: u) hp

/-- **C133** the clusters: one line in which `serverless` does not occur -/
theorem C133_serverful (x : String) : lineWithout "serverless".toList x.toList = true ↔ LineFree "serverless" x :=
  lineWithout_free (by decide) (by decide) _

/-! ### no exception goes unreported -/

local macro "step " h:term : tactic => `(tactic| (split; (rename_i e he; intro s hs; cases hs; exact $h s he)))

theorem noAttr_typeOfResource {t rs : List (Key × Val)} (hw : (Val.dict t).WF) (hrs : (Key.str "Resources", Val.dict rs) ∈ t)
    (ho : ∀ n v, ResourceIs (.dict t) n v → ∃ o, v = .dict o) (k : Option Key) {dflt : Val} (hd : dflt = .none ∨ dflt = .dict []) :
    NoAttr (typeOfResource (.dict t) k dflt) := by
  have hwt := hw
  rw [Val.WF] at hwt
  unfold typeOfResource
  simp only [Val.getD, dlookup_of_mem hwt.1 hrs, Option.getD_some]
  cases hk : k.bind (fun k => dlookup k rs) with
  | none =>
    rw [Option.getD_none]
    rcases hd with rfl | rfl
    · intro s h; simp [attrErr] at h
    · exact noAttr_ok _
  | some v =>
    rw [Option.getD_some]
    cases k with
    | none => cases hk
    | some k =>
      obtain ⟨o, rfl⟩ := ho k v ⟨rs, at_dict_one.2 hrs, dlookup_mem hk⟩
      exact noAttr_ok _

theorem noAttr_basedOnValue {t rs : List (Key × Val)} (hw : (Val.dict t).WF) (hrs : (Key.str "Resources", Val.dict rs) ∈ t)
    (ho : ∀ n v, ResourceIs (.dict t) n v → ∃ o, v = .dict o) (s : BasedOn) (v : Val) : NoAttr (basedOnValue (.dict t) s v) := by
  unfold basedOnValue
  split
  · exact noAttr_ok _
  · split
    · split
      · step (noAttr_typeOfResource hw hrs ho _ (.inr rfl))
        exact noAttr_ok _
      · exact noAttr_ok _
    · split
      · split
        · unfold basedOnGetAtt
          repeat' split
          all_goals first
            | exact noAttr_ok _
            | (intro s h; cases h; done)
            | (rename_i e he; intro s h; cases h; exact noAttr_typeOfResource hw hrs ho _ (.inl rfl) s he)
        · exact noAttr_ok _
      · exact noAttr_ok _
  · exact noAttr_ok _

theorem noAttr_basedCheck {enum : String → List String → List String} {order : List String → List String} {tb : CondTable}
    {t rs : List (Key × Val)} (hw : (Val.dict t).WF) (hrs : (Key.str "Resources", Val.dict rs) ∈ t)
    (ho : ∀ n v, ResourceIs (.dict t) n v → ∃ o, v = .dict o) {present : Bool} {specs : List (String × List BasedOn)} {kvs : List (Key × Val)}
    {path : Path} (hp : PlainObject kvs) : NoAttr (basedCheck enum order tb (.dict t) present specs (.dict kvs) path) := by
  unfold basedCheck
  rw [if_neg (by simp)]
  refine noAttr_collectM fun kr _ => noAttr_collectM fun s _ => ?_
  unfold basedRow
  split
  · exact noAttr_ok _
  step (noAttr_objectWithoutNamed _ _ _ _ _)
  rename_i sets hs
  refine noAttr_collectM fun set hset => ?_
  unfold objectWithoutNamed at hs
  split at hs
  · cases hs
  · split at hs
    · cases hs
    · obtain ⟨m, hm, _⟩ := sets_sound hp hs hset
      unfold basedSet
      rw [hm]
      simp only [Val.getD]
      step (noAttr_basedOnValue hw hrs ho _ _)
      · exact noAttr_ok _
      · unfold basedNames
        exact noAttr_collectM fun n _ => noAttr_ok _

/-! ### the rules in force -/

theorem dlookup_basedTypes {pick : BasedEntry → List String} {ty : String} {specs : List (String × List BasedEntry)}
    (hany : specs.any (fun ks => ks.2.any (fun e => !(pick e).isEmpty)) = true) : ∀ {l : List (String × List (String × List BasedEntry))},
    dlookup ty l = some specs → dlookup ty (basedTypes pick l) = some (specs.map (fun ks => (ks.1, ks.2.map (basedOf pick))))
  | [], h => by cases h
  | (k, v) :: l, h => by
    rw [dlookup] at h
    by_cases hk : k = ty
    · rw [if_pos hk] at h
      cases h
      simp [basedTypes, hany, dlookup, hk]
    · rw [if_neg hk] at h
      have ih := dlookup_basedTypes hany h
      simp only [basedTypes] at ih ⊢
      rw [List.filter_cons]
      split
      · rw [List.map_cons, dlookup, if_neg hk]
        exact ih
      · exact ih

theorem entryOf_based {pick : BasedEntry → List String} {T : TypeTables (List (String × List BasedEntry))} {top : Bool} {ty : String}
    {specs : List (String × List BasedEntry)} (he : EntryOf T top ty specs) {k n : String} {rows : List BasedEntry} {e : BasedEntry}
    (hr : (k, rows) ∈ specs) (hm : e ∈ rows) (hn : n ∈ pick e) :
    EntryOf (basedTables pick T) top ty (specs.map (fun ks => (ks.1, ks.2.map (basedOf pick)))) := by
  have hany : specs.any (fun ks => ks.2.any (fun e => !(pick e).isEmpty)) = true := by
    rw [List.any_eq_true]
    refine ⟨_, hr, List.any_eq_true.2 ⟨e, hm, ?_⟩⟩
    cases hp : pick e with
    | nil => rw [hp] at hn; cases hn
    | cons _ _ => rfl
  unfold EntryOf at he ⊢
  cases top
  · exact dlookup_basedTypes hany he
  · exact dlookup_basedTypes hany he

/-- the entries name properties, and one attribute for a type -/
def GoodEntries (pick : BasedEntry → List String) (specs : List (String × List BasedEntry)) : Prop :=
  ∀ kr ∈ specs, ∀ e ∈ kr.2, GoodBasedRow kr.1 (basedOf pick e)

theorem goodEntries_map {pick : BasedEntry → List String} {specs : List (String × List BasedEntry)} (h : GoodEntries pick specs) :
    ∀ kr ∈ specs.map (fun ks => (ks.1, ks.2.map (basedOf pick))), ∀ s ∈ kr.2, GoodBasedRow kr.1 s := by
  intro kr hkr s hs
  obtain ⟨ks, hks, rfl⟩ := List.mem_map.1 hkr
  obtain ⟨e, he, rfl⟩ := List.mem_map.1 hs
  exact h ks hks e he

namespace Spec

/-- under the truth of the conditions the property has this value -/
def ValueIs (σ : String → Bool) (kvs : List (Key × Val)) (k : String) (u : Val) : Prop := ∃ v q, (Key.str k, v) ∈ kvs ∧ Chosen σ v q u

/-- the function is fed from a stream: the name of a stream, a cluster of the template, or the stream of a resource of the template -/
inductive FromStream (t : Val) : Val → Prop
  | named {x} : ArnOf ["kinesis", "kafka", "dynamodb"] x → FromStream t (.str x)
  | cluster {x} : ResourceTyped t (.str x) (.str "AWS::MSK::Cluster") → FromStream t (.dict [(.str "Ref", .str x)])
  | table {x more} : ResourceTyped t (.str x) (.str "AWS::DynamoDB::Table") →
      FromStream t (.dict [(.str "Fn::GetAtt", .list (.str x :: .str "StreamArn" :: more))])
  | kinesis {x more} : ResourceTyped t (.str x) (.str "AWS::Kinesis::Stream") →
      FromStream t (.dict [(.str "Fn::GetAtt", .list (.str x :: .str "Arn" :: more))])

/-- the function is fed from a queue -/
inductive FromQueue (t : Val) : Val → Prop
  | named {x} : ArnOf ["sqs"] x → FromQueue t (.str x)
  | queue {x more} : ResourceTyped t (.str x) (.str "AWS::SQS::Queue") →
      FromQueue t (.dict [(.str "Fn::GetAtt", .list (.str x :: .str "Arn" :: more))])

/-- the resources are objects with names of letters and digits, which E3001 and E3006 see to -/
def NamedObjects (t : Val) : Prop := ∀ n v, ResourceIs t n v → (∃ s, n = .str s ∧ SectionName s) ∧ ∃ o, v = .dict o

end Spec

theorem namedObjects_noValue {t : Val} (h : NamedObjects t) (ty : Val) : ¬ ResourceTyped t (.str "AWS::NoValue") ty := by
  rintro ⟨top, rs, r, rfl, hrs, hr, _⟩
  obtain ⟨⟨s, e, hs⟩, _⟩ := h _ _ ⟨rs, at_dict_one.2 hrs, hr⟩
  cases e
  obtain ⟨l, hl, e⟩ := hs
  have hc : ':' ∈ l := by
    have hm : ':' ∈ "AWS::NoValue".toList := by decide
    rcases e with e | e <;> rw [e] at hm
    · exact hm
    · simpa using hm
  rcases hl _ hc with h | h | h <;> revert h <;> decide

theorem typedObject_resources {U : RegionSpec} {t : Val} {top : Bool} {ty : String} {p : Path} {kvs : List (Key × Val)}
    (h : TypedObject U t top ty p kvs) : ∃ l rs, t = .dict l ∧ (Key.str "Resources", Val.dict rs) ∈ l := by
  cases h with
  | resource h =>
    obtain ⟨l, rs, _, e, hm, _⟩ := h
    exact ⟨l, rs, e, hm⟩
  | below h _ _ _ =>
    obtain ⟨l, rs, _, e, hm, _⟩ := h
    exact ⟨l, rs, e, hm⟩

section Run

variable {objs : List RuleObj} {args : Sources} {all : List String} {regions : List Val}
variable {beh : RuleObj → Behaviour} {name : Val → String} {mark : Val → MVal} {print : List Match → PyM Unit} {ds : List Decoded}

/-- **C133** in full: when the script ends with status 0 and E3017 and E3018 are in force for a template whose resources are objects with proper names,
every object of a type of their table, in every deployment in which a property has one of the values an entry is about, has the properties
that the entry requires and has none that it does not want -/
def C133_statement : Prop :=
  ∀ (objs : List RuleObj) (args : Sources) (all : List String) (regions : List Val) (U : RegionSpec)
    (beh : RuleObj → Behaviour) (name : Val → String) (mark : Val → MVal) (print : List Match → PyM Unit) (ds : List Decoded)
    (E : CondEnv) (T : TypeTables (List (String × List BasedEntry))) (msg : BasedReport → String),
    CleanRun objs args all regions (traversed U) beh name mark print ds → SetOrder E.order →
    ∀ d ∈ ds, FollowedIn U d.template → NamedObjects d.template →
    ∀ top ty p kvs specs, TypedObject U d.template top ty p kvs → EntryOf T top ty specs → PlainObject kvs →
    ∀ k rows e H fuel t b, (k, rows) ∈ specs → e ∈ rows → d.template = .dict t →
      ((∀ r, r.info.id = "E3017" → beh r = requiredBasedOf E T msg) → InForce objs args d.template { id := "E3017" } → GoodEntries BasedEntry.required specs →
        Deployment H fuel E.enum t (E.tb d.template) (GroupCond kvs (k :: e.required)) b →
        TriggeredBy b d.template kvs k (basedOf BasedEntry.required e) → ∀ n ∈ e.required, HasProp b kvs n) ∧
      ((∀ r, r.info.id = "E3018" → beh r = unwantedBasedOf E T msg) → InForce objs args d.template { id := "E3018" } → GoodEntries BasedEntry.unwanted specs →
        Deployment H fuel E.enum t (E.tb d.template) (GroupCond kvs (k :: e.unwanted)) b →
        TriggeredBy b d.template kvs k (basedOf BasedEntry.unwanted e) → ∀ n ∈ e.unwanted, ¬ HasProp b kvs n)

/-- **C133** E3018: the object has none of the properties that are unwanted for the value -/
theorem C133_unwanted {U : RegionSpec} {E : CondEnv} {T : TypeTables (List (String × List BasedEntry))} {msg : BasedReport → String}
    (h : CleanRun objs args all regions (traversed U) beh name mark print ds)
    (hbeh : ∀ r, r.info.id = "E3018" → beh r = unwantedBasedOf E T msg) (hso : SetOrder E.order)
    {d : Decoded} (hd : d ∈ ds) (hf : InForce objs args d.template { id := "E3018" }) (hfo : FollowedIn U d.template)
    (hno : NamedObjects d.template)
    {top : Bool} {ty : String} {p : Path} {kvs : List (Key × Val)} (ho : TypedObject U d.template top ty p kvs)
    {specs : List (String × List BasedEntry)} (he : EntryOf T top ty specs) (hgs : GoodEntries BasedEntry.unwanted specs) (hp : PlainObject kvs)
    {k : String} {rows : List BasedEntry} {e : BasedEntry} (hr : (k, rows) ∈ specs) (hm : e ∈ rows)
    {H : Val → String} {fuel : Nat} {t : List (Key × Val)} {b : String → Bool} (hdt : d.template = .dict t)
    (hdep : Deployment H fuel E.enum t (E.tb d.template) (GroupCond kvs (k :: e.unwanted)) b)
    (ht : TriggeredBy b d.template kvs k (basedOf BasedEntry.unwanted e)) {n : String} (hn : n ∈ e.unwanted) : ¬ HasProp b kvs n := by
  intro hhas
  obtain ⟨l, rs, e1, hrs⟩ := typedObject_resources ho
  obtain rfl : l = t := by rw [hdt] at e1; cases e1; rfl
  obtain ⟨hwk, hrun⟩ := tables_ran h hbeh hd hf hfo ho (entryOf_based he hr hm hn)
    (fun _ => by rw [hdt]; exact noAttr_basedCheck (by rw [← hdt]; exact clean_wf h hd) hrs (fun n v hv => (hno n v (by rw [hdt]; exact hv)).2) hp)
  rw [hdt] at hrun hdep ht hno
  rw [Val.WF] at hwk
  obtain ⟨r, hr', _⟩ := C93_unwanted_complete hso hwk.1 hp (goodEntries_map hgs) hrun
    (List.mem_map.2 ⟨_, hr, rfl⟩) (List.mem_map.2 ⟨e, hm, rfl⟩) hdep (namedObjects_noValue hno) ht hn hhas
  cases hr'

/-- **C133** E3017: the object has the properties that are required for the value, unless the property is written as `AWS::NoValue` and none of
these properties asks a condition -/
theorem C133_required_partial {U : RegionSpec} {E : CondEnv} {T : TypeTables (List (String × List BasedEntry))} {msg : BasedReport → String}
    (h : CleanRun objs args all regions (traversed U) beh name mark print ds)
    (hbeh : ∀ r, r.info.id = "E3017" → beh r = requiredBasedOf E T msg) (hso : SetOrder E.order)
    {d : Decoded} (hd : d ∈ ds) (hf : InForce objs args d.template { id := "E3017" }) (hfo : FollowedIn U d.template)
    (hno : NamedObjects d.template)
    {top : Bool} {ty : String} {p : Path} {kvs : List (Key × Val)} (ho : TypedObject U d.template top ty p kvs)
    {specs : List (String × List BasedEntry)} (he : EntryOf T top ty specs) (hgs : GoodEntries BasedEntry.required specs) (hp : PlainObject kvs)
    {k : String} {rows : List BasedEntry} {e : BasedEntry} (hr : (k, rows) ∈ specs) (hm : e ∈ rows)
    {H : Val → String} {fuel : Nat} {t : List (Key × Val)} {b : String → Bool} (hdt : d.template = .dict t)
    (hdep : Deployment H fuel E.enum t (E.tb d.template) (GroupCond kvs (k :: e.required)) b)
    (ht : TriggeredBy b d.template kvs k (basedOf BasedEntry.required e)) {n : String} (hn : n ∈ e.required)
    (hnv : (∃ c, GroupCond kvs (k :: e.required) c) ∨ (Key.str n, noValue) ∉ kvs) : HasProp b kvs n := by
  by_contra hhas
  obtain ⟨l, rs, e1, hrs⟩ := typedObject_resources ho
  obtain rfl : l = t := by rw [hdt] at e1; cases e1; rfl
  obtain ⟨hwk, hrun⟩ := tables_ran h hbeh hd hf hfo ho (entryOf_based he hr hm hn)
    (fun _ => by rw [hdt]; exact noAttr_basedCheck (by rw [← hdt]; exact clean_wf h hd) hrs (fun n v hv => (hno n v (by rw [hdt]; exact hv)).2) hp)
  rw [hdt] at hrun hdep ht hno
  rw [Val.WF] at hwk
  obtain ⟨r, hr', _⟩ := C93_required_complete_partial hso hwk.1 hp (goodEntries_map hgs) hrun
    (List.mem_map.2 ⟨_, hr, rfl⟩) (List.mem_map.2 ⟨e, hm, rfl⟩) hdep (namedObjects_noValue hno) ht hn hhas hnv
  cases hr'

/-! ### the shipped table -/

theorem shipped_good {pick : BasedEntry → List String} (hp : pick = BasedEntry.required ∨ pick = BasedEntry.unwanted) {top : Bool} {ty : String}
    {specs : List (String × List BasedEntry)} (h : EntryOf basedOnValueTables top ty specs) : GoodEntries pick specs := by
  have hall : ∀ kv ∈ basedOnValueTables.resourceTypes ++ basedOnValueTables.propertyTypes, ∀ kr ∈ kv.2, ∀ e ∈ kr.2,
      (e.getAtts.map Prod.fst).Nodup ∧ "Fn::If" ∉ kr.1 :: (e.required ++ e.unwanted) := by
    simp [basedOnValueTables]
  have hmem : (ty, specs) ∈ basedOnValueTables.resourceTypes ++ basedOnValueTables.propertyTypes := by
    unfold EntryOf at h
    have := dlookup_mem h
    cases top
    · exact List.mem_append_right _ this
    · exact List.mem_append_left _ this
  intro kr hkr e he
  obtain ⟨h1, h2⟩ := hall _ hmem kr hkr e he
  refine ⟨h1, fun hf => h2 ?_⟩
  rcases hp with rfl | rfl <;> simp only [basedOf, List.mem_cons, List.mem_append] at hf ⊢ <;> tauto

section Shipped

variable {U : RegionSpec} {E : CondEnv} {msg : BasedReport → String}
  (h : CleanRun objs args all regions (traversed U) beh name mark print ds) (hso : SetOrder E.order)
  {d : Decoded} (hd : d ∈ ds) (hfo : FollowedIn U d.template) (hno : NamedObjects d.template)
  {p : Path} {kvs : List (Key × Val)} (hp : PlainObject kvs)
  {H : Val → String} {fuel : Nat} {t : List (Key × Val)} {b : String → Bool} (hdt : d.template = .dict t)

include h hso hd hfo hno hp hdt

/-- **C133** shipped: a mapping that feeds a function from a stream says where in the stream to start -/
theorem C133_starting_position_partial (hbeh : ∀ r, r.info.id = "E3017" → beh r = requiredBasedOf E basedOnValueTables msg)
    (hf : InForce objs args d.template { id := "E3017" }) (ho : TypedObject U d.template true "AWS::Lambda::EventSourceMapping" p kvs)
    (hdep : Deployment H fuel E.enum t (E.tb d.template) (GroupCond kvs ["EventSourceArn", "StartingPosition"]) b)
    {u : Val} (hu : ValueIs b kvs "EventSourceArn" u) (hs : FromStream d.template u)
    (hnv : (∃ c, GroupCond kvs ["EventSourceArn", "StartingPosition"] c) ∨ (Key.str "StartingPosition", noValue) ∉ kvs) :
    HasProp b kvs "StartingPosition" := by
  obtain ⟨v, q, hv, hc⟩ := hu
  refine C133_required_partial (ty := "AWS::Lambda::EventSourceMapping") (top := true) h hbeh hso hd hf hfo hno ho rfl (shipped_good (ty := "AWS::Lambda::EventSourceMapping") (top := true) (.inl rfl) rfl) hp
    (k := "EventSourceArn") List.mem_cons_self List.mem_cons_self hdt hdep ⟨v, q, u, hv, hc, ?_⟩ List.mem_cons_self hnv
  cases hs with
  | named ha => exact .text rfl ((C133_stream _).2 ha)
  | cluster hr => exact .ref hr (by simp [basedOf])
  | table hr => exact .getAtt (.str _) hr (by simp [basedOf])
  | kinesis hr => exact .getAtt (.str _) hr (by simp [basedOf])

/-- **C133** shipped: a mapping that feeds a function from a queue does not say where to start -/
theorem C133_queue_start (hbeh : ∀ r, r.info.id = "E3018" → beh r = unwantedBasedOf E basedOnValueTables msg)
    (hf : InForce objs args d.template { id := "E3018" }) (ho : TypedObject U d.template true "AWS::Lambda::EventSourceMapping" p kvs)
    (hdep : Deployment H fuel E.enum t (E.tb d.template) (GroupCond kvs ["EventSourceArn", "StartingPosition"]) b)
    {u : Val} (hu : ValueIs b kvs "EventSourceArn" u) (hs : FromQueue d.template u) : ¬ HasProp b kvs "StartingPosition" := by
  obtain ⟨v, q, hv, hc⟩ := hu
  refine C133_unwanted (ty := "AWS::Lambda::EventSourceMapping") (top := true) h hbeh hso hd hf hfo hno ho rfl (shipped_good (ty := "AWS::Lambda::EventSourceMapping") (top := true) (.inr rfl) rfl) hp
    (k := "EventSourceArn") List.mem_cons_self (List.mem_cons_of_mem _ List.mem_cons_self) hdt hdep ⟨v, q, u, hv, hc, ?_⟩ List.mem_cons_self
  cases hs with
  | named ha => exact .text rfl ((C133_queue _).2 ha)
  | queue hr => exact .getAtt (.str _) hr (by simp [basedOf])

/-- **C133** shipped: a database cluster whose mode is a line without `serverless` has no scaling configuration -/
theorem C133_cluster (hbeh : ∀ r, r.info.id = "E3018" → beh r = unwantedBasedOf E basedOnValueTables msg)
    (hf : InForce objs args d.template { id := "E3018" }) (ho : TypedObject U d.template true "AWS::RDS::DBCluster" p kvs)
    (hdep : Deployment H fuel E.enum t (E.tb d.template) (GroupCond kvs ["EngineMode", "ScalingConfiguration"]) b)
    {x : String} (hu : ValueIs b kvs "EngineMode" (.str x)) (hs : LineFree "serverless" x) : ¬ HasProp b kvs "ScalingConfiguration" := by
  obtain ⟨v, q, hv, hc⟩ := hu
  exact C133_unwanted (ty := "AWS::RDS::DBCluster") (top := true) h hbeh hso hd hf hfo hno ho rfl (shipped_good (ty := "AWS::RDS::DBCluster") (top := true) (.inr rfl) rfl) hp
    (k := "EngineMode") List.mem_cons_self List.mem_cons_self hdt hdep ⟨v, q, _, hv, hc, .text rfl ((C133_serverful _).2 hs)⟩ List.mem_cons_self

/-- **C133** shipped: an instance of Aurora has none of the settings that belong to its cluster -/
theorem C133_instance (hbeh : ∀ r, r.info.id = "E3018" → beh r = unwantedBasedOf E basedOnValueTables msg)
    (hf : InForce objs args d.template { id := "E3018" }) (ho : TypedObject U d.template true "AWS::RDS::DBInstance" p kvs)
    (hdep : Deployment H fuel E.enum t (E.tb d.template) (GroupCond kvs ["Engine", "AllocatedStorage", "BackupRetentionPeriod", "CopyTagsToSnapshot",
      "DeletionProtection", "EnableIAMDatabaseAuthentication", "MasterUserPassword", "StorageEncrypted"]) b)
    {x : String} (hu : ValueIs b kvs "Engine" (.str x)) (hs : Begins "aurora" x) {n : String}
    (hn : n ∈ ["AllocatedStorage", "BackupRetentionPeriod", "CopyTagsToSnapshot", "DeletionProtection", "EnableIAMDatabaseAuthentication",
      "MasterUserPassword", "StorageEncrypted"]) : ¬ HasProp b kvs n := by
  obtain ⟨v, q, hv, hc⟩ := hu
  exact C133_unwanted (ty := "AWS::RDS::DBInstance") (top := true) h hbeh hso hd hf hfo hno ho rfl (shipped_good (ty := "AWS::RDS::DBInstance") (top := true) (.inr rfl) rfl) hp
    (k := "Engine") List.mem_cons_self List.mem_cons_self hdt hdep ⟨v, q, _, hv, hc, .text rfl ((C133_aurora _).2 hs)⟩ hn

/-- **C133** shipped: a table that is paid by request has no provisioned throughput -/
theorem C133_throughput (hbeh : ∀ r, r.info.id = "E3018" → beh r = unwantedBasedOf E basedOnValueTables msg)
    (hf : InForce objs args d.template { id := "E3018" }) (ho : TypedObject U d.template true "AWS::DynamoDB::Table" p kvs)
    (hdep : Deployment H fuel E.enum t (E.tb d.template) (GroupCond kvs ["BillingMode", "ProvisionedThroughput"]) b)
    {x : String} (hu : ValueIs b kvs "BillingMode" (.str x)) (hs : Begins "PAY_PER_REQUEST" x) : ¬ HasProp b kvs "ProvisionedThroughput" := by
  obtain ⟨v, q, hv, hc⟩ := hu
  exact C133_unwanted (ty := "AWS::DynamoDB::Table") (top := true) h hbeh hso hd hf hfo hno ho rfl (shipped_good (ty := "AWS::DynamoDB::Table") (top := true) (.inr rfl) rfl) hp
    (k := "BillingMode") List.mem_cons_self List.mem_cons_self hdt hdep ⟨v, q, _, hv, hc, .text rfl ((C133_begins _ _).2 hs)⟩ List.mem_cons_self

/-- **C133** shipped: a health check on a metric names the alarm -/
theorem C133_alarm_partial (hbeh : ∀ r, r.info.id = "E3017" → beh r = requiredBasedOf E basedOnValueTables msg)
    (hf : InForce objs args d.template { id := "E3017" }) (ho : TypedObject U d.template false "AWS::Route53::HealthCheck.HealthCheckConfig" p kvs)
    (hdep : Deployment H fuel E.enum t (E.tb d.template) (GroupCond kvs ["Type", "AlarmIdentifier"]) b)
    {x : String} (hu : ValueIs b kvs "Type" (.str x)) (hs : Begins "CLOUDWATCH_METRIC" x)
    (hnv : (∃ c, GroupCond kvs ["Type", "AlarmIdentifier"] c) ∨ (Key.str "AlarmIdentifier", noValue) ∉ kvs) : HasProp b kvs "AlarmIdentifier" := by
  obtain ⟨v, q, hv, hc⟩ := hu
  exact C133_required_partial (ty := "AWS::Route53::HealthCheck.HealthCheckConfig") (top := false) h hbeh hso hd hf hfo hno ho rfl (shipped_good (ty := "AWS::Route53::HealthCheck.HealthCheckConfig") (top := false) (.inl rfl) rfl) hp
    (k := "Type") List.mem_cons_self List.mem_cons_self hdt hdep ⟨v, q, _, hv, hc, .text rfl ((C133_begins _ _).2 hs)⟩ List.mem_cons_self hnv

end Shipped

end Run

/-! ### witnesses -/

theorem exBased_clean {id ty : String} {bh : Behaviour} {o : List (Key × Val)} (hid : ∃ cs, id.toList = 'E' :: cs) (hb : ∀ t, bh.setUp t = .ok ())
    (hw : (Val.dict o).WF) (ha : setTemplateArgs (exGroup o ty) = .ok []) (hd : getDirectives (markAll default (exGroup o ty)) = .ok [])
    (h : runCommand .script [{ info := { id := id } }] (c50Args [] false []) (checkWith [] [] (traversed ⟨[], [], []⟩) (fun _ => bh) (fun _ => "t") (markAll default))
      (fun _ => .ok ()) [⟨exGroup o ty, []⟩] = 0) :
    CleanRun [{ info := { id := id } }] (c50Args [] false []) [] [] (traversed ⟨[], [], []⟩) (fun _ => bh) (fun _ => "t") (markAll default)
      (fun _ => .ok ()) [⟨exGroup o ty, []⟩] :=
  oneRule_clean hid hb (exRel_wf (exGroupRes_wf hw)) ⟨rfl, _, rfl⟩ ha hd h

theorem exBased_named (o : List (Key × Val)) (ty : String) : NamedObjects (exGroup o ty) := by
  rintro n v ⟨rs, hrs, hm⟩
  have hrs' : (Key.str "Resources", Val.dict rs) ∈ exRel (exGroupRes ty o) := at_dict_one.1 hrs
  simp only [exRel, exOne, List.mem_append, List.mem_cons, Prod.mk.injEq, Key.str.injEq, List.not_mem_nil, or_false] at hrs'
  rcases hrs' with (⟨h, _⟩ | ⟨h, _⟩) | ⟨_, h⟩
  · simp at h
  · simp at h
  · cases h
    cases List.mem_singleton.1 hm
    exact ⟨⟨"R", rfl, ['R'], by simp [Alnum], .inl rfl⟩, _, rfl⟩

theorem exBased_deploy {ty : String} {o : List (Key × Val)} (hw : (Val.dict o).WF) (hi : (Conditions.init exHash 5 (exGroup o ty)).2 = none)
    {P : String → Prop} (hP : ∀ c, P c → c = "C1") {b : String → Bool} (hb : b "C1" = true) :
    Deployment exHash 5 exGroupEnv.enum (exRel (exGroupRes ty o)) (exGroupEnv.tb (exGroup o ty)) P b :=
  exRel_deployment (s := "a") (exGroupRes_wf hw) hi (.inl rfl) hP hb

/-- no condition is asked by texts -/
theorem flat_conds {o : List (Key × Val)} (ho : ∀ kv ∈ o, ∃ s, kv.2 = .str s) (g : List String) (c : String) : ¬ GroupCond o g c := by
  rintro ⟨n, _, v, hm, ha⟩
  obtain ⟨s, e⟩ := ho _ hm
  simp only at e
  subst e
  have := (mem_propConds c _).2 ha
  simp [propConds] at this

theorem flat_value {o : List (Key × Val)} {k s : String} (h : (Key.str k, Val.str s) ∈ o) (b : String → Bool) : ValueIs b o k (.str s) :=
  ⟨.str s, [], h, .here (by rintro ⟨_, h⟩; simp at h)⟩

def exBasedEntries : List (String × List BasedEntry) := [("A", [{ regex := some (fun y => y == "x"), required := ["B"], unwanted := ["D"] }])]

theorem exBasedEntries_good {pick : BasedEntry → List String} (hp : pick = BasedEntry.required ∨ pick = BasedEntry.unwanted) : GoodEntries pick exBasedEntries := by
  intro kr hkr e he
  cases List.mem_singleton.1 hkr
  cases List.mem_singleton.1 he
  rcases hp with rfl | rfl <;> exact ⟨by simp [basedOf], by simp [basedOf]⟩

/-- the full statement does not hold: a required property written as `AWS::NoValue` counts as present -/
theorem C133_novalue_violated : ¬ C133_statement := by
  intro h
  have ha : setTemplateArgs (exGroup exBasedNone) = .ok [] := by decide
  have hw : (Val.dict exBasedNone).WF := by simp [exBasedNone, noValue, Val.WF, Val.WFDict]
  have hr := exBased_clean (id := "E3017") (ty := "T") (bh := requiredBasedOf exGroupEnv (exGroupTable exBasedEntries) (fun _ => "m")) ⟨_, rfl⟩ (fun _ => rfl)
    hw ha (by decide +kernel) (by decide +kernel)
  exact exBasedNone_lacks ((h _ _ _ _ _ _ _ _ _ _ exGroupEnv (exGroupTable exBasedEntries) (fun _ => "m") hr setOrder_eraseDups _ List.mem_cons_self
    (exGroup_followed _) (exBased_named _ _) _ _ _ _ exBasedEntries (exGroup_object _ _ _) rfl exBasedNone_plain "A" _ _ exHash 5
    (exRel (exGroupRes "T" exBasedNone)) (fun _ => true) List.mem_cons_self List.mem_cons_self rfl).1 (fun _ _ => rfl) (oneRule_inForce ha (by decide))
    (exBasedEntries_good (.inl rfl)) (exBased_deploy hw (by decide) (fun _ h => absurd h exBasedNone_cond) rfl)
    ⟨.str "x", [], .str "x", by simp [exBasedNone], .here (by rintro ⟨_, h⟩; simp at h), .text rfl rfl⟩ "B" List.mem_cons_self)

/-- the hypotheses of `C133_required_partial` are met -/
example : HasProp (fun _ => true) [(.str "A", .str "x"), (.str "B", .str "y")] "B" :=
  have hw : (Val.dict [(.str "A", .str "x"), (.str "B", .str "y")]).WF := by simp [Val.WF, Val.WFDict]
  have ha : setTemplateArgs (exGroup [(.str "A", .str "x"), (.str "B", .str "y")]) = .ok [] := by decide
  C133_required_partial (exBased_clean (id := "E3017") (ty := "T") (bh := requiredBasedOf exGroupEnv (exGroupTable exBasedEntries) (fun _ => "m")) ⟨_, rfl⟩
      (fun _ => rfl) hw ha (by decide +kernel) (by decide +kernel)) (fun _ _ => rfl) setOrder_eraseDups List.mem_cons_self
    (oneRule_inForce ha (by decide)) (exGroup_followed _) (exBased_named _ _) (exGroup_object _ _ _) rfl (exBasedEntries_good (.inl rfl))
    ⟨by decide, by decide, by simp [Proper]⟩ (k := "A") List.mem_cons_self List.mem_cons_self rfl
    (exBased_deploy hw (by decide) (fun c h => absurd h (flat_conds (by simp) _ c)) rfl)
    ⟨.str "x", [], .str "x", List.mem_cons_self, .here (by rintro ⟨_, h⟩; simp at h), .text rfl rfl⟩ List.mem_cons_self (.inr (by simp [noValue]))

/-- the hypotheses of `C133_unwanted` are met -/
example : ¬ HasProp (fun _ => true) [(.str "A", .str "x"), (.str "B", .str "y")] "D" :=
  have hw : (Val.dict [(.str "A", .str "x"), (.str "B", .str "y")]).WF := by simp [Val.WF, Val.WFDict]
  have ha : setTemplateArgs (exGroup [(.str "A", .str "x"), (.str "B", .str "y")]) = .ok [] := by decide
  C133_unwanted (exBased_clean (id := "E3018") (ty := "T") (bh := unwantedBasedOf exGroupEnv (exGroupTable exBasedEntries) (fun _ => "m")) ⟨_, rfl⟩
      (fun _ => rfl) hw ha (by decide +kernel) (by decide +kernel)) (fun _ _ => rfl) setOrder_eraseDups List.mem_cons_self
    (oneRule_inForce ha (by decide)) (exGroup_followed _) (exBased_named _ _) (exGroup_object _ _ _) rfl (exBasedEntries_good (.inr rfl))
    ⟨by decide, by decide, by simp [Proper]⟩ (k := "A") List.mem_cons_self List.mem_cons_self rfl
    (exBased_deploy hw (by decide) (fun c h => absurd h (flat_conds (by simp) _ c)) rfl)
    ⟨.str "x", [], .str "x", List.mem_cons_self, .here (by rintro ⟨_, h⟩; simp at h), .text rfl rfl⟩ List.mem_cons_self

/-- the hypotheses of `C133_starting_position_partial` are met -/
example : HasProp (fun _ => true) [(.str "EventSourceArn", .str "arn:aws:kinesis:s"), (.str "StartingPosition", .str "LATEST")] "StartingPosition" :=
  have hw : (Val.dict [(.str "EventSourceArn", .str "arn:aws:kinesis:s"), (.str "StartingPosition", .str "LATEST")]).WF := by simp [Val.WF, Val.WFDict]
  have ha : setTemplateArgs (exGroup [(.str "EventSourceArn", .str "arn:aws:kinesis:s"), (.str "StartingPosition", .str "LATEST")] "AWS::Lambda::EventSourceMapping") = .ok [] := by decide
  C133_starting_position_partial (exBased_clean (id := "E3017") (ty := "AWS::Lambda::EventSourceMapping") (bh := requiredBasedOf exGroupEnv basedOnValueTables (fun _ => "m")) ⟨_, rfl⟩
      (fun _ => rfl) hw ha (by decide +kernel) (by decide +kernel)) setOrder_eraseDups List.mem_cons_self (exGroup_followed _) (exBased_named _ _)
    ⟨by decide, by decide, by simp [Proper]⟩ rfl (fun _ _ => rfl) (oneRule_inForce ha (by decide)) (exGroup_object _ _ _)
    (exBased_deploy hw (by decide) (fun c h => absurd h (flat_conds (by simp) _ c)) rfl) (flat_value List.mem_cons_self _)
    (.named ⟨[], "kinesis", ['s'], by simp, by simp, rfl⟩) (.inr (by simp [noValue]))

/-- the hypotheses of `C133_queue_start` are met -/
example : ¬ HasProp (fun _ => true) [(.str "EventSourceArn", .str "arn:aws:sqs:q")] "StartingPosition" :=
  have hw : (Val.dict [(.str "EventSourceArn", .str "arn:aws:sqs:q")]).WF := by simp [Val.WF, Val.WFDict]
  have ha : setTemplateArgs (exGroup [(.str "EventSourceArn", .str "arn:aws:sqs:q")] "AWS::Lambda::EventSourceMapping") = .ok [] := by decide
  C133_queue_start (exBased_clean (id := "E3018") (ty := "AWS::Lambda::EventSourceMapping") (bh := unwantedBasedOf exGroupEnv basedOnValueTables (fun _ => "m")) ⟨_, rfl⟩
      (fun _ => rfl) hw ha (by decide +kernel) (by decide +kernel)) setOrder_eraseDups List.mem_cons_self (exGroup_followed _) (exBased_named _ _)
    ⟨by decide, by decide, by simp [Proper]⟩ rfl (fun _ _ => rfl) (oneRule_inForce ha (by decide)) (exGroup_object _ _ _)
    (exBased_deploy hw (by decide) (fun c h => absurd h (flat_conds (by simp) _ c)) rfl) (flat_value List.mem_cons_self _)
    (.named ⟨[], "sqs", ['q'], by simp, by simp, rfl⟩)

/-- the hypotheses of `C133_cluster` are met -/
example : ¬ HasProp (fun _ => true) [(.str "EngineMode", .str "global")] "ScalingConfiguration" :=
  have hw : (Val.dict [(.str "EngineMode", .str "global")]).WF := by simp [Val.WF, Val.WFDict]
  have ha : setTemplateArgs (exGroup [(.str "EngineMode", .str "global")] "AWS::RDS::DBCluster") = .ok [] := by decide
  C133_cluster (exBased_clean (id := "E3018") (ty := "AWS::RDS::DBCluster") (bh := unwantedBasedOf exGroupEnv basedOnValueTables (fun _ => "m")) ⟨_, rfl⟩
      (fun _ => rfl) hw ha (by decide +kernel) (by decide +kernel)) setOrder_eraseDups List.mem_cons_self (exGroup_followed _) (exBased_named _ _)
    ⟨by decide, by decide, by simp [Proper]⟩ rfl (fun _ _ => rfl) (oneRule_inForce ha (by decide)) (exGroup_object _ _ _)
    (exBased_deploy hw (by decide) (fun c h => absurd h (flat_conds (by simp) _ c)) rfl) (flat_value List.mem_cons_self _)
    ⟨_, ⟨by decide, by decide⟩, .inl rfl⟩

/-- the hypotheses of `C133_instance` are met -/
example : ¬ HasProp (fun _ => true) [(.str "Engine", .str "aurora-mysql")] "StorageEncrypted" :=
  have hw : (Val.dict [(.str "Engine", .str "aurora-mysql")]).WF := by simp [Val.WF, Val.WFDict]
  have ha : setTemplateArgs (exGroup [(.str "Engine", .str "aurora-mysql")] "AWS::RDS::DBInstance") = .ok [] := by decide
  C133_instance (exBased_clean (id := "E3018") (ty := "AWS::RDS::DBInstance") (bh := unwantedBasedOf exGroupEnv basedOnValueTables (fun _ => "m")) ⟨_, rfl⟩
      (fun _ => rfl) hw ha (by decide +kernel) (by decide +kernel)) setOrder_eraseDups List.mem_cons_self (exGroup_followed _) (exBased_named _ _)
    ⟨by decide, by decide, by simp [Proper]⟩ rfl (fun _ _ => rfl) (oneRule_inForce ha (by decide)) (exGroup_object _ _ _)
    (exBased_deploy hw (by decide) (fun c h => absurd h (flat_conds (by simp) _ c)) rfl) (flat_value List.mem_cons_self _)
    ⟨"-mysql".toList, rfl⟩ (by simp)

/-- the hypotheses of `C133_throughput` are met -/
example : ¬ HasProp (fun _ => true) [(.str "BillingMode", .str "PAY_PER_REQUEST")] "ProvisionedThroughput" :=
  have hw : (Val.dict [(.str "BillingMode", .str "PAY_PER_REQUEST")]).WF := by simp [Val.WF, Val.WFDict]
  have ha : setTemplateArgs (exGroup [(.str "BillingMode", .str "PAY_PER_REQUEST")] "AWS::DynamoDB::Table") = .ok [] := by decide
  C133_throughput (exBased_clean (id := "E3018") (ty := "AWS::DynamoDB::Table") (bh := unwantedBasedOf exGroupEnv basedOnValueTables (fun _ => "m")) ⟨_, rfl⟩
      (fun _ => rfl) hw ha (by decide +kernel) (by decide +kernel)) setOrder_eraseDups List.mem_cons_self (exGroup_followed _) (exBased_named _ _)
    ⟨by decide, by decide, by simp [Proper]⟩ rfl (fun _ _ => rfl) (oneRule_inForce ha (by decide)) (exGroup_object _ _ _)
    (exBased_deploy hw (by decide) (fun c h => absurd h (flat_conds (by simp) _ c)) rfl) (flat_value List.mem_cons_self _)
    ⟨[], rfl⟩

end CfnLint
