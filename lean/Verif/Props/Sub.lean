import Verif.Lemmas.Sub
import Verif.Props.CondRules
/-
Properties C56 to C59: the variables of `Fn::Sub`, unused parameters, unused mappings, and superfluous `Fn::Sub`.
-/
namespace CfnLint
open Spec

/-! ## C56 -/

/-- The full C56 statement: for every text, the names found are those that stand between `${` and `}`, blanks
around them left out, except those after an exclamation mark. -/
def C56_statement : Prop :=
  ∀ s x : String, x ∈ subParams s ↔ ∃ pre l r post, s.toList = pre ++ '$' :: '{' :: (l ++ (x.toList ++ (r ++ '}' :: post))) ∧
    SubBlank l ∧ SubBlank r ∧ SubName x.toList ∧ x ≠ "" ∧ (l ++ x.toList).head? ≠ some '!'

/-- C56, for well-formed texts: the names found are exactly the variables, from left to right, as often as they
stand there. Missing for the full claim: texts with `${` in other places, see the counterexamples. -/
theorem C56_exact_partial (s : String) (ns : List (List Char)) (h : SubText s.toList ns) :
    subParams s = ns.map String.ofList := subParams_text h

/-- C56, for every text: a name found stands between `${` and the next closing brace behind its first character,
and does not begin with an exclamation mark. -/
theorem C56_sound_partial (s x : String) (h : x ∈ subParams s) :
    ∃ pre b post, s.toList = pre ++ '$' :: '{' :: (b ++ '}' :: post) ∧ b ≠ [] ∧ b.head? ≠ some '!' ∧
      (∀ c ∈ b.tail, c ≠ '}' ∧ c ≠ '\n') ∧ Trimmed b x.toList := by
  obtain ⟨pre, b, post, h1, h2, h3, h4, h5⟩ := subScan_sound _ _ _ h
  exact ⟨pre, b, post, h1, h2, h3, h4, h5 ▸ pyStrip_trimmed b⟩

/-- A well-formed text has one list of variables. -/
theorem C56_unique {s : List Char} {ns ns' : List (List Char)} (h : SubText s ns) (h' : SubText s ns') : ns = ns' := by
  have := (subScan_text h _ (Nat.le_refl _)).symm.trans (subScan_text h' _ (Nat.le_refl _))
  refine (List.map_inj_right ?_).1 this
  intro a b hab
  simpa using congrArg String.toList hab

/-- C56 does not hold: empty braces swallow the text up to the next closing brace, and the variable in between is
missed. -/
theorem C56_empty_braces_violated : ¬ C56_statement := by
  intro h
  have h1 := (h "${}${A}" "A").2 ⟨"${}".toList, [], [], [], by decide, by simp [SubBlank], by simp [SubBlank],
    by intro c hc; have : c = 'A' := by simpa using hc
       subst this; decide, by decide, by decide⟩
  exact absurd h1 (by decide)

/-- C56 does not hold: of nested braces the inner `${` becomes part of the name. -/
theorem C56_nested_violated : ¬ C56_statement := by
  intro h
  obtain ⟨_, _, _, _, _, _, _, hn, _⟩ := (h "${${A}}" "${A").1 (by decide)
  exact absurd rfl (hn '$' (by decide)).2.2.1

-- the hypotheses are met: a text with a variable and a literal
theorem subText_example : SubText "a${ B }${!C}".toList [['B']] := by
  have h : SubText ['$', '{', '!', 'C', '}'] [] :=
    .literal (n := ['C']) (by intro c hc; have : c = 'C' := by simpa using hc
                              subst this; decide) .nil
  have h2 : SubText "${ B }${!C}".toList [['B']] :=
    .var (l := [' ']) (n := ['B']) (r := [' ']) (by intro c hc; left; simpa using hc)
      (by intro c hc; have : c = 'B' := by simpa using hc
          subst this; decide) (by simp) (by decide) (by intro c hc; left; simpa using hc) h
  exact .char (by decide) h2

example : subParams "a${ B }${!C}" = ["B"] := C56_exact_partial _ _ subText_example
example : "B" ∈ subParams "a${ B }${!C}" := by decide

/-! ## C57 -/

/-- a section of the right shape -/
theorem text_section {t : Val} {sec : String} (hw : t.WF) (hs : TextSection t sec) :
    ∃ cs, t.getD sec (.dict []) = .ok (.dict cs) ∧ (cs.map Prod.fst).Nodup ∧
      (∀ k w, (k, w) ∈ cs → ∃ s, k = .str s) ∧ ∀ k w, At t [.str sec, k] w ↔ (k, w) ∈ cs := by
  obtain ⟨⟨top, rfl⟩, hs⟩ := hs
  unfold Val.getD
  dsimp only
  cases hl : dlookup (Key.str sec) top with
  | none =>
    refine ⟨[], rfl, by simp, by simp, ?_⟩
    intro k w
    simp only [List.not_mem_nil, iff_false]
    intro h
    have h' : At (.dict top) ([.str sec] ++ [k]) w := h
    obtain ⟨u, h1, _⟩ := at_split h'
    rw [at_obj hw, hl] at h1
    cases h1
  | some v =>
    obtain ⟨cs, rfl, hk⟩ := hs v ((at_obj hw).2 hl)
    have hwc : (Val.dict cs).WF := at_wf ((at_obj hw).2 hl) hw
    refine ⟨cs, rfl, hwc.1, hk, ?_⟩
    intro k w
    constructor
    · intro h
      have h' : At (.dict top) ([.str sec] ++ [k]) w := h
      obtain ⟨u, h1, h2⟩ := at_split h'
      rw [at_obj hw, hl] at h1
      cases h1
      exact at_dict_one.1 h2
    · intro hm
      exact .key (dlookup_mem hl) (.key hm .here)

theorem parameterItems_section {t : Val} (hw : t.WF) (hs : TextSection t "Parameters") :
    ∃ cs, parameterItems t = .ok cs ∧ (cs.map Prod.fst).Nodup ∧
      (∀ k w, (k, w) ∈ cs → ∃ s, k = .str s) ∧ ∀ k w, At t [.str "Parameters", k] w ↔ (k, w) ∈ cs := by
  obtain ⟨cs, h1, h2⟩ := text_section hw hs
  refine ⟨cs, ?_, h2⟩
  unfold parameterItems
  rw [h1]
  dsimp only
  cases cs with
  | nil => rfl
  | cons a l => rfl

/-- The full C57 statement: rule W2001 ends normally and reports exactly the parameters that are used nowhere, each
once, at its definition. `pre` is the template before the transform. -/
def C57_statement : Prop :=
  ∀ pre t : Val, pre.WF → t.WF → TextSection t "Parameters" → ∃ out, unusedParameters pre t = .ok out ∧
    (out.map Prod.fst).Nodup ∧
    ∀ p k, (p, k) ∈ out ↔ ∃ c v, k = .str c ∧ p = [.str "Parameters", k] ∧ At t [.str "Parameters", k] v ∧ ¬ UsesParam pre c

theorem subTexts_spec {pre : Val} (hw : pre.WF) (hs : SubShape pre) :
    ∃ subs, collectM subTexts (searchDeepKeys "Fn::Sub" pre (.dict [])) = .ok subs ∧
      ∀ x, x ∈ subs ↔ ∃ q s, (At pre (q ++ [.str "Fn::Sub"]) (.str s) ∨
        ∃ m, At pre (q ++ [.str "Fn::Sub"]) (.list [.str s, .dict m])) ∧ SubVar s x := by
  have hsearch := fun p v => (C27_search_partial "Fn::Sub" pre hw).1 p v
  have hshape : ∀ f ∈ searchDeepKeys "Fn::Sub" pre (.dict []), ∃ s ns, SubText s.toList ns ∧
      subTexts f = .ok (subParams s) ∧ (f.2 = .str s ∨ ∃ m, f.2 = .list [.str s, .dict m]) := by
    rintro ⟨p, v⟩ hf
    obtain ⟨ha, q, rfl⟩ := (hsearch p v).1 hf
    obtain ⟨s, ns, h1, h2⟩ := hs q v ha
    refine ⟨s, ns, h1, ?_, h2⟩
    rcases h2 with rfl | ⟨m, rfl⟩ <;> rfl
  obtain ⟨subs, hsubs⟩ : ∃ r, collectM subTexts (searchDeepKeys "Fn::Sub" pre (.dict [])) = .ok r := by
    refine collectM_ok fun f hf => ?_
    obtain ⟨s, _, _, h, _⟩ := hshape f hf
    exact ⟨_, h⟩
  refine ⟨subs, hsubs, ?_⟩
  intro x
  rw [mem_collectM hsubs]
  constructor
  · rintro ⟨⟨p, v⟩, hf, l, hl, hm⟩
    obtain ⟨s, ns, h1, h2, h3⟩ := hshape _ hf
    rw [h2] at hl
    cases hl
    obtain ⟨ha, q, rfl⟩ := (hsearch p v).1 hf
    refine ⟨q, s, ?_, (subVar_found h1).1 hm⟩
    dsimp only at h3
    rcases h3 with rfl | ⟨m, rfl⟩
    · exact .inl ha
    · exact .inr ⟨m, ha⟩
  · rintro ⟨q, s, h, hv⟩
    obtain ⟨ns, hns, _⟩ := id hv
    rcases h with h | ⟨m, h⟩
    · exact ⟨_, (hsearch _ _).2 ⟨h, q, rfl⟩, _, rfl, (subVar_found hns).2 hv⟩
    · exact ⟨_, (hsearch _ _).2 ⟨h, q, rfl⟩, _, rfl, (subVar_found hns).2 hv⟩

theorem unusedParameters_spec {pre t : Val} (hp : pre.WF) (hw : t.WF) (hs : SubShape pre)
    (ht : TextSection t "Parameters") :
    ∃ out, unusedParameters pre t = .ok out ∧ (out.map Prod.fst).Nodup ∧
      ∀ p k, (p, k) ∈ out ↔ ∃ c v, k = .str c ∧ p = [.str "Parameters", k] ∧ At t [.str "Parameters", k] v ∧
        (∀ q, ¬ At pre (q ++ [.str "Ref"]) (.str c)) ∧
        ∀ q s, (At pre (q ++ [.str "Fn::Sub"]) (.str s) ∨
          ∃ m, At pre (q ++ [.str "Fn::Sub"]) (.list [.str s, .dict m])) → ¬ SubVar s c := by
  obtain ⟨cs, hc, hn, hk, hd⟩ := parameterItems_section hw ht
  obtain ⟨subs, hsub, hm⟩ := subTexts_spec hp hs
  unfold unusedParameters
  rw [hsub, hc]
  refine ⟨_, rfl, ?_, ?_⟩
  · rw [List.map_map]
    have : (Prod.fst ∘ fun c : Key × Val => ([Key.str "Parameters", c.1], c.1)) =
        (fun k => [Key.str "Parameters", k]) ∘ Prod.fst := rfl
    rw [this, ← List.map_map]
    refine List.Nodup.map ?_ ?_
    · intro a b h; simpa using h
    · exact hn.sublist (List.Sublist.map _ List.filter_sublist)
  · intro p k
    simp only [List.mem_map, List.mem_filter, Bool.and_eq_true, List.all_eq_true, bne_iff_ne, Prod.exists,
      Prod.mk.injEq]
    constructor
    · rintro ⟨k', w, ⟨hmem, href, hsubs⟩, rfl, rfl⟩
      obtain ⟨c, rfl⟩ := hk k' w hmem
      refine ⟨c, w, rfl, rfl, (hd _ _).2 hmem, ?_, ?_⟩
      · intro q h
        exact href (_, .str c) (((C27_search_partial "Ref" pre hp).1 _ _).2 ⟨h, q, rfl⟩) rfl
      · intro q s h hv
        exact hsubs c ((hm c).2 ⟨q, s, h, hv⟩) rfl
    · rintro ⟨c, w, rfl, rfl, hdef, href, hsubs⟩
      refine ⟨_, w, ⟨(hd _ _).1 hdef, ?_, ?_⟩, rfl, rfl⟩
      · rintro ⟨q, v⟩ hf he
        rw [toKey_str] at he
        dsimp only at he
        subst he
        obtain ⟨ha, q', rfl⟩ := ((C27_search_partial "Ref" pre hp).1 _ _).1 hf
        exact href q' ha
      · intro s hs' he
        cases he
        obtain ⟨q, s', h, hv⟩ := (hm _).1 hs'
        exact hsubs q s' h hv

/-- C57, for templates whose `Fn::Sub` are well formed and do not define variables with the names of parameters:
W2001 reports exactly the unused parameters. Missing for the full claim: the other templates, see the
counterexamples. -/
theorem C57_exact_partial (pre t : Val) (hp : pre.WF) (hw : t.WF) (hs : SubShape pre)
    (ht : TextSection t "Parameters") (hns : NoShadow pre t) :
    ∃ out, unusedParameters pre t = .ok out ∧ (out.map Prod.fst).Nodup ∧
      ∀ p k, (p, k) ∈ out ↔
        ∃ c v, k = .str c ∧ p = [.str "Parameters", k] ∧ At t [.str "Parameters", k] v ∧ ¬ UsesParam pre c := by
  obtain ⟨out, h1, h2, h3⟩ := unusedParameters_spec hp hw hs ht
  refine ⟨out, h1, h2, ?_⟩
  intro p k
  rw [h3]
  constructor
  · rintro ⟨c, v, rfl, rfl, hd, hr, hsub⟩
    refine ⟨c, v, rfl, rfl, hd, ?_⟩
    intro hu
    cases hu with
    | ref h => exact hr _ h
    | sub h hv => exact hsub _ _ (.inl h) hv
    | subMap h hv _ => exact hsub _ _ (.inr ⟨_, h⟩) hv
  · rintro ⟨c, v, rfl, rfl, hd, hu⟩
    refine ⟨c, v, rfl, rfl, hd, fun q h => hu (.ref h), ?_⟩
    rintro q s (h | ⟨m, h⟩) hv
    · exact hu (.sub h hv)
    · exact hu (.subMap h hv fun w hm => hns q s m _ w h hm ⟨v, hd⟩)

/-- C57, with variables of any name: what W2001 reports is an unused parameter. -/
theorem C57_reported_partial (pre t : Val) (hp : pre.WF) (hw : t.WF) (hs : SubShape pre)
    (ht : TextSection t "Parameters") :
    ∃ out, unusedParameters pre t = .ok out ∧ ∀ p k, (p, k) ∈ out →
      ∃ c v, k = .str c ∧ p = [.str "Parameters", k] ∧ At t [.str "Parameters", k] v ∧ ¬ UsesParam pre c := by
  obtain ⟨out, h1, h2, h3⟩ := unusedParameters_spec hp hw hs ht
  refine ⟨out, h1, ?_⟩
  intro p k hm
  obtain ⟨c, v, rfl, rfl, hd, hr, hsub⟩ := (h3 p k).1 hm
  refine ⟨c, v, rfl, rfl, hd, ?_⟩
  intro hu
  cases hu with
  | ref h => exact hr _ h
  | sub h hv => exact hsub _ _ (.inl h) hv
  | subMap h hv _ => exact hsub _ _ (.inr ⟨_, h⟩) hv

/-- a template with a parameter and one value -/
def paramTemplate (v : Val) : Val :=
  .dict [(.str "Parameters", .dict [(.str "P", .dict [])]), (.str "Metadata", v)]

theorem paramTemplate_section (v : Val) : TextSection (paramTemplate v) "Parameters" := by
  refine ⟨⟨_, rfl⟩, ?_⟩
  intro w h
  unfold paramTemplate at h
  rw [at_dict_one] at h
  simp only [List.mem_cons, Prod.mk.injEq, true_and, List.not_mem_nil, or_false] at h
  rcases h with rfl | ⟨h, _⟩
  · exact ⟨_, rfl, by rintro k w hm; simp at hm; exact ⟨_, hm.1⟩⟩
  · simp at h

/-- C57 does not hold: an `Fn::Sub` with an empty list makes the rule raise. -/
theorem C57_empty_sub_violated : ¬ C57_statement := by
  intro h
  have hw : (paramTemplate (.dict [(.str "Fn::Sub", .list [])])).WF := by
    simp [paramTemplate, Val.WF, Val.WFDict, Val.WFList]
  obtain ⟨out, ho, _⟩ := h _ _ hw hw (paramTemplate_section _)
  rw [show unusedParameters _ _ = .error (.indexError "list index out of range") from by decide] at ho
  cases ho

/-- an `Fn::Sub` that defines its only variable itself -/
def shadowTemplate : Val :=
  paramTemplate (.dict [(.str "Fn::Sub", .list [.str "${P}", .dict [(.str "P", .str "x")]])])

/-- C57 does not hold: a parameter whose name is only a variable the `Fn::Sub` defines itself is not reported. -/
theorem C57_shadow_violated : ¬ C57_statement := by
  intro h
  have hw : shadowTemplate.WF := by
    simp [shadowTemplate, paramTemplate, Val.WF, Val.WFDict, Val.WFList]
  obtain ⟨out, ho, _, hm⟩ := h _ _ hw hw (paramTemplate_section _)
  rw [show unusedParameters _ _ = .ok [] from by decide] at ho
  cases ho
  have := (hm [.str "Parameters", .str "P"] (.str "P")).2 ⟨"P", .dict [], rfl, rfl,
    .key (kvs := [(.str "Parameters", .dict [(.str "P", .dict [])]), _]) List.mem_cons_self
      (.key List.mem_cons_self .here), ?_⟩
  · cases this
  · intro hu
    have hsub := fun q v (h : At shadowTemplate (q ++ [.str "Fn::Sub"]) v) =>
      ((C27_search_partial "Fn::Sub" shadowTemplate hw).1 _ _).2 ⟨h, q, rfl⟩
    rw [show searchDeepKeys "Fn::Sub" shadowTemplate (.dict []) =
      [([.str "Metadata", .str "Fn::Sub"], .list [.str "${P}", .dict [(.str "P", .str "x")]])] from by decide] at hsub
    cases hu with
    | @ref q h =>
      have := ((C27_search_partial "Ref" shadowTemplate hw).1 _ _).2 ⟨h, q, rfl⟩
      rw [show searchDeepKeys "Ref" shadowTemplate (.dict []) = [] from by decide] at this
      cases this
    | sub h _ => have := hsub _ _ h; simp at this
    | @subMap q s m h _ hno =>
      have := hsub _ _ h
      simp only [List.mem_singleton, Prod.mk.injEq, Val.list.injEq, List.cons.injEq, Val.dict.injEq, and_true] at this
      rw [this.2.2] at hno
      exact hno _ List.mem_cons_self

-- the hypotheses are met
theorem subShape_of_search {t : Val} (hw : t.WF) (h : ∀ f ∈ searchDeepKeys "Fn::Sub" t (.dict []),
    ∃ s ns, SubText s.toList ns ∧ (f.2 = .str s ∨ ∃ m, f.2 = .list [.str s, .dict m])) : SubShape t :=
  fun q v ha => h (_, v) (((C27_search_partial "Fn::Sub" t hw).1 _ _).2 ⟨ha, q, rfl⟩)

def subExample : Val := paramTemplate (.dict [(.str "Fn::Sub", .list [.str "a${ B }${!C}", .dict [(.str "B", .str "x")]])])

theorem subExample_wf : subExample.WF := by simp [subExample, paramTemplate, Val.WF, Val.WFDict, Val.WFList]

theorem subExample_shape : SubShape subExample := by
  refine subShape_of_search subExample_wf ?_
  rw [show searchDeepKeys "Fn::Sub" subExample (.dict []) = [([.str "Metadata", .str "Fn::Sub"],
    .list [.str "a${ B }${!C}", .dict [(.str "B", .str "x")]])] from by decide]
  intro f hf
  simp only [List.mem_singleton] at hf
  subst hf
  exact ⟨_, _, subText_example, .inr ⟨_, rfl⟩⟩

theorem subExample_noShadow : NoShadow subExample subExample := by
  rintro q s m k w h hm ⟨v, hv⟩
  have := ((C27_search_partial "Fn::Sub" subExample subExample_wf).1 _ _).2 ⟨h, q, rfl⟩
  rw [show searchDeepKeys "Fn::Sub" subExample (.dict []) = [([.str "Metadata", .str "Fn::Sub"],
    .list [.str "a${ B }${!C}", .dict [(.str "B", .str "x")]])] from by decide] at this
  simp only [List.mem_singleton, Prod.mk.injEq, Val.list.injEq, List.cons.injEq, Val.dict.injEq, and_true] at this
  rw [this.2.2, List.mem_singleton] at hm
  cases hm
  obtain ⟨cs, _, _, _, h2⟩ := parameterItems_section subExample_wf (paramTemplate_section _)
  have h' : At subExample ([.str "Parameters"] ++ [.str "B"]) v := hv
  obtain ⟨u, h1, h2⟩ := at_split h'
  rw [show subExample = .dict [(.str "Parameters", .dict [(.str "P", .dict [])]), (.str "Metadata", _)] from rfl,
    at_dict_one] at h1
  simp only [List.mem_cons, Prod.mk.injEq, true_and, List.not_mem_nil, or_false] at h1
  rcases h1 with rfl | ⟨h1, _⟩
  · rw [at_dict_one] at h2; simp at h2
  · simp at h1

example : ∃ out, unusedParameters subExample subExample = .ok out ∧ (out.map Prod.fst).Nodup ∧
    ∀ p k, (p, k) ∈ out ↔ ∃ c v, k = .str c ∧ p = [.str "Parameters", k] ∧ At subExample [.str "Parameters", k] v ∧
      ¬ UsesParam subExample c :=
  C57_exact_partial _ _ subExample_wf subExample_wf subExample_shape (paramTemplate_section _) subExample_noShadow
example : unusedParameters subExample subExample = .ok [([.str "Parameters", .str "P"], .str "P")] := by decide

/-! ## C58 -/

/-- The full C58 statement: rule W7001 ends normally and reports exactly the mappings that no `Fn::FindInMap` names,
each once, at its definition, unless the name of a mapping is computed somewhere. -/
def C58_statement : Prop :=
  ∀ pre t : Val, pre.WF → t.WF → TextSection t "Mappings" → ∃ out, unusedMappings pre t = .ok out ∧
    (out.map Prod.fst).Nodup ∧
    ∀ p k, (p, k) ∈ out ↔ ∃ c v, k = .str c ∧ p = [.str "Mappings", k] ∧ At t [.str "Mappings", k] v ∧
      ¬ UsesMap pre c ∧ ¬ ComputedMap pre

/-- the names collected from calls of the right shape -/
theorem mapUses_spec : ∀ (l : List (Path × Val)),
    (∀ f ∈ l, ∃ x rest, f.2 = .list (x :: rest) ∧ ((∃ s, x = .str s) ∨ ∃ kvs, x = .dict kvs)) →
    ((∃ f ∈ l, ∃ kvs rest, f.2 = .list (.dict kvs :: rest)) → mapUses l = .ok none) ∧
    ((¬ ∃ f ∈ l, ∃ kvs rest, f.2 = .list (.dict kvs :: rest)) → ∃ u, mapUses l = .ok (some u) ∧
      ∀ c, Val.str c ∈ u ↔ ∃ f ∈ l, ∃ rest, f.2 = .list (.str c :: rest))
  | [], _ => ⟨(by rintro ⟨f, hf, _⟩; cases hf), fun _ => ⟨[], rfl, by simp⟩⟩
  | f :: l, h => by
    obtain ⟨h1, h2⟩ := mapUses_spec l fun f hf => h f (List.mem_cons_of_mem _ hf)
    obtain ⟨x, rest, hf, hx⟩ := h f List.mem_cons_self
    rcases hx with ⟨s, rfl⟩ | ⟨kvs, rfl⟩
    · have he : mapUses (f :: l) = (match mapUses l with
          | .error e => .error e
          | .ok r => .ok (r.map (Val.str s :: ·))) := by
        rw [mapUses, hf]
        rfl
      rw [he]
      constructor
      · rintro ⟨g, hg, kvs, rest', hgv⟩
        rcases List.mem_cons.1 hg with rfl | hg
        · rw [hf] at hgv; cases hgv
        · rw [h1 ⟨g, hg, kvs, rest', hgv⟩]; rfl
      · intro hno
        obtain ⟨u, hu, hm⟩ := h2 fun ⟨g, hg, e⟩ => hno ⟨g, List.mem_cons_of_mem _ hg, e⟩
        rw [hu]
        refine ⟨_, rfl, ?_⟩
        intro c
        rw [List.mem_cons, hm]
        constructor
        · rintro (h | ⟨g, hg, e⟩)
          · cases h; exact ⟨f, List.mem_cons_self, rest, hf⟩
          · exact ⟨g, List.mem_cons_of_mem _ hg, e⟩
        · rintro ⟨g, hg, rest', e⟩
          rcases List.mem_cons.1 hg with rfl | hg
          · rw [hf] at e; cases e; exact .inl rfl
          · exact .inr ⟨g, hg, rest', e⟩
    · constructor
      · intro _; rw [mapUses, hf]
      · intro hno; exact absurd ⟨f, List.mem_cons_self, kvs, rest, hf⟩ hno

theorem at_first {t x : Val} {q : Path} {key : String} (hs : ∀ v, At t (q ++ [.str key]) v → ∃ l, v = .list l) :
    At t (q ++ [.str key, .int 0]) x ↔ ∃ rest, At t (q ++ [.str key]) (.list (x :: rest)) := by
  have he : q ++ [Key.str key, .int 0] = (q ++ [.str key]) ++ [.int 0] := by simp
  rw [he]
  constructor
  · intro h
    obtain ⟨u, h1, h2⟩ := at_split h
    obtain ⟨l, rfl⟩ := hs u h1
    generalize hk : Key.int 0 = k at h2
    cases h2 with
    | @idx xs i y p w hx h3 =>
      simp only [Key.int.injEq] at hk
      have : i = 0 := by omega
      subst this
      cases h3
      cases l with
      | nil => cases hx
      | cons z l => cases hx; exact ⟨l, h1⟩
  · rintro ⟨rest, h⟩
    exact at_append h (.idx (i := 0) rfl .here)

/-- C58, for templates whose `Fn::FindInMap` are lists that begin with a name or a function: W7001 reports exactly
the unused mappings. Missing for the full claim: templates with malformed uses, see the counterexamples. -/
theorem C58_exact_partial (pre t : Val) (hp : pre.WF) (hw : t.WF) (hs : FindInMapShape pre)
    (ht : TextSection t "Mappings") :
    ∃ out, unusedMappings pre t = .ok out ∧ (out.map Prod.fst).Nodup ∧
      ∀ p k, (p, k) ∈ out ↔ ∃ c v, k = .str c ∧ p = [.str "Mappings", k] ∧ At t [.str "Mappings", k] v ∧
        ¬ UsesMap pre c ∧ ¬ ComputedMap pre := by
  obtain ⟨cs, hc, hn, hk, hd⟩ := text_section hw ht
  have hsearch := fun p v => (C27_search_partial "Fn::FindInMap" pre hp).1 p v
  have hlist : ∀ q v, At pre (q ++ [.str "Fn::FindInMap"]) v → ∃ l, v = .list l := by
    intro q v h
    obtain ⟨x, rest, rfl, _⟩ := hs q v h
    exact ⟨_, rfl⟩
  obtain ⟨hm1, hm2⟩ := mapUses_spec (searchDeepKeys "Fn::FindInMap" pre (.dict [])) (by
    rintro ⟨p, v⟩ hf
    obtain ⟨ha, q, rfl⟩ := (hsearch p v).1 hf
    exact hs q v ha)
  have hcomp : (∃ f ∈ searchDeepKeys "Fn::FindInMap" pre (.dict []), ∃ kvs rest, f.2 = .list (.dict kvs :: rest)) ↔
      ComputedMap pre := by
    constructor
    · rintro ⟨⟨p, v⟩, hf, kvs, rest, hv⟩
      obtain ⟨ha, q, rfl⟩ := (hsearch p v).1 hf
      dsimp only at hv
      subst hv
      exact ⟨q, kvs, (at_first (hlist q)).2 ⟨rest, ha⟩⟩
    · rintro ⟨q, kvs, h⟩
      obtain ⟨rest, h⟩ := (at_first (hlist q)).1 h
      exact ⟨_, (hsearch _ _).2 ⟨h, q, rfl⟩, kvs, rest, rfl⟩
  unfold unusedMappings
  rw [hc]
  dsimp only
  by_cases htr : (Val.dict cs).truthy = true
  · rw [if_pos htr]
    by_cases hcm : ComputedMap pre
    · rw [hm1 (hcomp.2 hcm)]
      refine ⟨[], rfl, by simp, ?_⟩
      intro p k
      simp only [List.not_mem_nil, false_iff]
      rintro ⟨_, _, _, _, _, _, h⟩
      exact h hcm
    · obtain ⟨u, hu, hmem⟩ := hm2 fun h => hcm (hcomp.1 h)
      have huse : ∀ c, Val.str c ∈ u ↔ UsesMap pre c := by
        intro c
        rw [hmem]
        constructor
        · rintro ⟨⟨p, v⟩, hf, rest, hv⟩
          obtain ⟨ha, q, rfl⟩ := (hsearch p v).1 hf
          dsimp only at hv
          subst hv
          exact ⟨q, (at_first (hlist q)).2 ⟨rest, ha⟩⟩
        · rintro ⟨q, h⟩
          obtain ⟨rest, h⟩ := (at_first (hlist q)).1 h
          exact ⟨_, (hsearch _ _).2 ⟨h, q, rfl⟩, rest, rfl⟩
      rw [hu]
      refine ⟨_, rfl, ?_, ?_⟩
      · rw [List.map_map]
        have : (Prod.fst ∘ fun c : Key × Val => ([Key.str "Mappings", c.1], c.1)) =
            (fun k => [Key.str "Mappings", k]) ∘ Prod.fst := rfl
        rw [this, ← List.map_map]
        refine List.Nodup.map ?_ ?_
        · intro a b h; simpa using h
        · exact hn.sublist (List.Sublist.map _ List.filter_sublist)
      · intro p k
        simp only [List.mem_map, List.mem_filter, List.all_eq_true, bne_iff_ne, Prod.exists, Prod.mk.injEq]
        constructor
        · rintro ⟨k', w, ⟨hm, hall⟩, rfl, rfl⟩
          obtain ⟨c, rfl⟩ := hk k' w hm
          exact ⟨c, w, rfl, rfl, (hd _ _).2 hm, fun h => hall _ ((huse c).2 h) rfl, hcm⟩
        · rintro ⟨c, w, rfl, rfl, hdef, hno, _⟩
          refine ⟨_, w, ⟨(hd _ _).1 hdef, ?_⟩, rfl, rfl⟩
          intro v hv he
          rw [toKey_str] at he
          subst he
          exact hno ((huse c).1 hv)
  · rw [if_neg htr]
    have : cs = [] := by
      cases cs with
      | nil => rfl
      | cons a l => exact absurd rfl htr
    subst this
    refine ⟨[], rfl, by simp, ?_⟩
    intro p k
    simp only [List.not_mem_nil, false_iff]
    rintro ⟨c, v, _, _, h, _⟩
    cases (hd _ _).1 h

/-- a template with a mapping and one value -/
def mapTemplate (v : Val) : Val :=
  .dict [(.str "Mappings", .dict [(.str "M", .dict [])]), (.str "Metadata", v)]

theorem mapTemplate_section (v : Val) : TextSection (mapTemplate v) "Mappings" := by
  refine ⟨⟨_, rfl⟩, ?_⟩
  intro w h
  unfold mapTemplate at h
  rw [at_dict_one] at h
  simp only [List.mem_cons, Prod.mk.injEq, true_and, List.not_mem_nil, or_false] at h
  rcases h with rfl | ⟨h, _⟩
  · exact ⟨_, rfl, by rintro k w hm; simp at hm; exact ⟨_, hm.1⟩⟩
  · simp at h

/-- C58 does not hold: an `Fn::FindInMap` with an empty list makes the rule raise. -/
theorem C58_empty_violated : ¬ C58_statement := by
  intro h
  have hw : (mapTemplate (.dict [(.str "Fn::FindInMap", .list [])])).WF := by
    simp [mapTemplate, Val.WF, Val.WFDict, Val.WFList]
  obtain ⟨out, ho, _⟩ := h _ _ hw hw (mapTemplate_section _)
  rw [show unusedMappings _ _ = .error (.indexError "list index out of range") from by decide] at ho
  cases ho

-- the hypotheses are met: one call that names another mapping
def mapExample : Val := mapTemplate (.dict [(.str "Fn::FindInMap", .list [.str "N", .str "a", .str "b"])])

theorem mapExample_wf : mapExample.WF := by simp [mapExample, mapTemplate, Val.WF, Val.WFDict, Val.WFList]

theorem mapExample_shape : FindInMapShape mapExample := by
  intro q v h
  have := ((C27_search_partial "Fn::FindInMap" mapExample mapExample_wf).1 _ _).2 ⟨h, q, rfl⟩
  rw [show searchDeepKeys "Fn::FindInMap" mapExample (.dict []) = [([.str "Metadata", .str "Fn::FindInMap"],
    .list [.str "N", .str "a", .str "b"])] from by decide] at this
  simp only [List.mem_singleton, Prod.mk.injEq] at this
  exact ⟨_, _, this.2, .inl ⟨_, rfl⟩⟩

example : ∃ out, unusedMappings mapExample mapExample = .ok out ∧ (out.map Prod.fst).Nodup ∧
    ∀ p k, (p, k) ∈ out ↔ ∃ c v, k = .str c ∧ p = [.str "Mappings", k] ∧ At mapExample [.str "Mappings", k] v ∧
      ¬ UsesMap mapExample c ∧ ¬ ComputedMap mapExample :=
  C58_exact_partial _ _ mapExample_wf mapExample_wf mapExample_shape (mapTemplate_section _)
example : unusedMappings mapExample mapExample = .ok [([.str "Mappings", .str "M"], .str "M")] := by decide

/-! ## C59 -/

/-- W1020 reports exactly the texts of `Fn::Sub` without variables: the function itself, or the first element of its
list. -/
def SubUnneededExact (pre : Val) (out : List Path) : Prop :=
  ∀ p, p ∈ out ↔ ∃ q s, (∀ x, ¬ SubVar s x) ∧
    (At pre (q ++ [.str "Fn::Sub"]) (.str s) ∧ p = q ++ [.str "Fn::Sub"] ∨
      ∃ m, At pre (q ++ [.str "Fn::Sub"]) (.list [.str s, .dict m]) ∧ p = q ++ [.str "Fn::Sub", .int 0])

/-- The full C59 statement: rule W1020 ends normally for every template, and on templates with well-formed `Fn::Sub`
it reports exactly the texts without variables while W1019 reports exactly the variables that are defined and do
not occur in the text. -/
def C59_statement : Prop :=
  ∀ t : Val, t.WF → ∃ out, subUnneeded t = .ok out ∧ (SubShape t → SubUnneededExact t out ∧
    ∀ p k, (p, k) ∈ subUnused t (.dict []) ↔ ∃ q s m w, At t (q ++ [.str "Fn::Sub"]) (.list [.str s, .dict m]) ∧
      (k, w) ∈ m ∧ p = q ++ [.str "Fn::Sub", .int 1] ∧ ∀ x, k = .str x → ¬ SubVar s x)

theorem subParams_nil {s : String} {ns : List (List Char)} (h : SubText s.toList ns) :
    subParams s = [] ↔ ∀ x, ¬ SubVar s x := by
  rw [List.eq_nil_iff_forall_not_mem]
  exact forall_congr' fun x => not_congr (subVar_found h)

/-- C59, W1020 on templates with well-formed `Fn::Sub`. Missing for the full claim: other templates, on which the
rule can raise. -/
theorem C59_unneeded_partial (t : Val) (hw : t.WF) (hs : SubShape t) :
    ∃ out, subUnneeded t = .ok out ∧ SubUnneededExact t out := by
  have hsearch := fun p v => (C27_search_partial "Fn::Sub" t hw).1 p v
  obtain ⟨out, ho⟩ : ∃ r, collectM subUnneededAt (searchDeepKeys "Fn::Sub" t (.dict [])) = .ok r := by
    refine collectM_ok fun f hf => ?_
    obtain ⟨p, v⟩ := f
    obtain ⟨ha, q, rfl⟩ := (hsearch p v).1 hf
    obtain ⟨s, ns, h1, h2⟩ := hs q v ha
    rcases h2 with rfl | ⟨m, rfl⟩ <;> exact ⟨_, rfl⟩
  refine ⟨out, ho, ?_⟩
  intro p
  rw [mem_collectM ho]
  constructor
  · rintro ⟨⟨p', v⟩, hf, l, hl, hm⟩
    obtain ⟨ha, q, rfl⟩ := (hsearch p' v).1 hf
    obtain ⟨s, ns, h1, h2⟩ := hs q v ha
    rcases h2 with rfl | ⟨m, rfl⟩
    · simp only [subUnneededAt, Except.ok.injEq] at hl
      subst hl
      split at hm
      · rename_i he
        exact ⟨q, s, (subParams_nil h1).1 he, .inl ⟨ha, List.mem_singleton.1 hm⟩⟩
      · cases hm
    · simp only [subUnneededAt, Except.ok.injEq] at hl
      subst hl
      split at hm
      · rename_i he
        exact ⟨q, s, (subParams_nil h1).1 he, .inr ⟨m, ha, by simpa using hm⟩⟩
      · cases hm
  · rintro ⟨q, s, hno, ⟨ha, rfl⟩ | ⟨m, ha, rfl⟩⟩
    · obtain ⟨s', ns, h1, h2⟩ := hs q _ ha
      rcases h2 with he | ⟨m, he⟩
      · cases he
        refine ⟨_, (hsearch _ _).2 ⟨ha, q, rfl⟩, _, rfl, ?_⟩
        rw [if_pos ((subParams_nil h1).2 hno)]
        exact List.mem_singleton.2 rfl
      · cases he
    · obtain ⟨s', ns, h1, h2⟩ := hs q _ ha
      rcases h2 with he | ⟨m', he⟩
      · cases he
      · cases he
        refine ⟨_, (hsearch _ _).2 ⟨ha, q, rfl⟩, _, rfl, ?_⟩
        rw [if_pos ((subParams_nil h1).2 hno)]
        simp

/-- C59, W1019 on templates with well-formed `Fn::Sub`. -/
theorem C59_unused_partial (t : Val) (hw : t.WF) (hs : SubShape t) :
    ∀ p k, (p, k) ∈ subUnused t (.dict []) ↔ ∃ q s m w, At t (q ++ [.str "Fn::Sub"]) (.list [.str s, .dict m]) ∧
      (k, w) ∈ m ∧ p = q ++ [.str "Fn::Sub", .int 1] ∧ ∀ x, k = .str x → ¬ SubVar s x := by
  intro p k
  have hsearch := fun p v => (C27_search_partial "Fn::Sub" t hw).1 p v
  unfold subUnused
  rw [List.mem_flatMap]
  constructor
  · rintro ⟨⟨p', v⟩, hf, hm⟩
    obtain ⟨ha, q, rfl⟩ := (hsearch p' v).1 hf
    obtain ⟨s, ns, h1, h2⟩ := hs q v ha
    rcases h2 with rfl | ⟨m, rfl⟩
    · cases hm
    · simp only [subUnusedAt, List.mem_map, List.mem_filter, List.all_eq_true, bne_iff_ne, Prod.exists,
        Prod.mk.injEq] at hm
      obtain ⟨k', w, ⟨hkm, hall⟩, rfl, rfl⟩ := hm
      refine ⟨q, s, m, w, ha, hkm, by simp, ?_⟩
      rintro x rfl hv
      exact hall x ((subVar_found h1).2 hv) rfl
  · rintro ⟨q, s, m, w, ha, hkm, rfl, hno⟩
    refine ⟨_, (hsearch _ _).2 ⟨ha, q, rfl⟩, ?_⟩
    obtain ⟨s', ns, h1, h2⟩ := hs q _ ha
    rcases h2 with he | ⟨m', he⟩
    · cases he
    · cases he
      simp only [subUnusedAt, List.mem_map, List.mem_filter, List.all_eq_true, bne_iff_ne, Prod.exists,
        Prod.mk.injEq]
      refine ⟨k, w, ⟨hkm, ?_⟩, by simp, rfl⟩
      rintro x hx rfl
      exact hno x rfl ((subVar_found h1).1 hx)

/-- C59 does not hold: an `Fn::Sub` with a list of two elements, the first no text, makes rule W1020 raise. -/
theorem C59_no_text_violated : ¬ C59_statement := by
  intro h
  obtain ⟨out, ho, _⟩ := h (.dict [(.str "Fn::Sub", .list [.int 1, .int 2])])
    (by simp [Val.WF, Val.WFDict, Val.WFList])
  rw [show subUnneeded _ = .error (.typeError "expected string or bytes-like object") from by decide] at ho
  cases ho

-- the hypotheses are met
example : ∃ out, subUnneeded subExample = .ok out ∧ SubUnneededExact subExample out :=
  C59_unneeded_partial _ subExample_wf subExample_shape
example : subUnneeded subExample = .ok [] := by decide
example : subUnused (.dict [(.str "Fn::Sub", .list [.str "x", .dict [(.str "B", .str "x")]])]) (.dict []) =
    [([.str "Fn::Sub", .int 1], .str "B")] := by decide

end CfnLint
