import Verif.Lemmas.GetAtt
import Verif.Lemmas.CondMain
import Mathlib.Data.List.Nodup
/-
C49: the attribute reference check is exact.
-/
namespace CfnLint
open Spec

theorem typeAttrs_open {S : AttrSpecs} {ty : String} (h : OpenType ty) :
    typeAttrs S ty = some [("*", ⟨none, if startsWith ty "AWS::CloudFormation::Stack" then some "String" else none⟩)] := by
  unfold typeAttrs
  split
  · rfl
  · rename_i h1
    rw [if_pos]
    simp only [Bool.or_eq_true]
    rcases h with rfl | h | h | rfl | h
    · exact absurd rfl h1
    · exact .inl (.inl (.inl (startsAs_iff.2 h)))
    · exact .inl (.inl (.inr (startsAs_iff.2 h)))
    · exact .inl (.inr (by decide))
    · exact .inr (endsWith_iff.2 h)

theorem typeAttrs_closed {S : AttrSpecs} {ty : String} (h : ¬ OpenType ty)
    (hs : StartsAs ty "AWS::CloudFormation::Stack" → ty = "AWS::CloudFormation::Stack")
    (hc : StartsAs ty "AWS::CloudFormation::CustomResource" → ty = "AWS::CloudFormation::CustomResource") :
    typeAttrs S ty = (dlookup ty S).bind id := by
  unfold typeAttrs
  rw [if_neg, if_neg]
  · cases dlookup ty S with
    | none => rfl
    | some o => cases o <;> rfl
  · simp only [Bool.or_eq_true, not_or]
    refine ⟨⟨⟨?_, ?_⟩, ?_⟩, ?_⟩
    · intro e; exact h (.inr (.inl (startsAs_iff.1 e)))
    · intro e; exact h (.inr (.inr (.inl (startsAs_iff.1 e))))
    · intro e; exact h (.inr (.inr (.inr (.inl (hc (startsAs_iff.1 e))))))
    · intro e; exact h (.inr (.inr (.inr (.inr (endsWith_iff.1 e)))))
  · intro e; exact h (.inl (hs (startsAs_iff.1 e)))

theorem checkAttr_star {d : AttrDecl} {A : String} (h : ¬ StartsAs A "*.") : checkAttr [("*", d)] A = [] := by
  have hfin : (if !dhas A [("*", d)] && !dhas "*" [("*", d)] then [GaKind.attribute] else []) = [] := by
    have : dhas "*" [("*", d)] = true := by simp [dhas, dlookup]
    simp [this]
  unfold checkAttr
  split
  · rename_i first b c heq
    have hne : "*" ≠ String.ofList first := by
      intro e
      apply h
      by_cases hdot : '.' ∈ A.toList
      · obtain ⟨pre, suf, he, hpre⟩ : ∃ pre suf, A.toList = pre ++ '.' :: suf ∧ '.' ∉ pre := List.eq_append_cons_of_mem hdot
        rw [he, splitOn_append _ hpre] at heq
        simp only [List.cons.injEq] at heq
        have hp : pre = ['*'] := by
          have := congrArg String.toList e
          rw [← heq.1] at this
          simpa using this.symm
        unfold StartsAs
        rw [he, hp]
        exact ⟨suf, rfl⟩
      · rw [splitOn_plain hdot] at heq
        simp at heq
    simp only [dlookup, hne, if_false]
    exact hfin
  · exact hfin

/-- C49, in part: for plain specifications and templates the rule reports exactly the references to attributes that do
not exist. -/
theorem C49_exact_partial {S : AttrSpecs} {t : Val} (hS : PlainAttrs S) (ht : PlainGetAtts t) :
    ∃ fs, getAttRule S t (.dict []) = .ok fs ∧
      ∀ q v R A, At t (q ++ [.str "Fn::GetAtt"]) v → R ≠ "" → ¬ StartsAs A "*." → NamesAttr v R A →
        ((∃ k, (q ++ [.str "Fn::GetAtt"], k) ∈ fs) ↔ ¬ HasAttr S t R A) := by
  obtain ⟨top, res, rfl, hres, hent⟩ := ht.resources
  have hwt := ht.wf
  simp only [Val.WF] at hwt
  have hwr := wfDict_mem_cond hwt.2 hres
  simp only [Val.WF] at hwr
  have hro : resourcesOf (.dict top) = .ok res := by
    simp [resourcesOf, Val.getD, dlookup_of_mem hwt.1 hres, itemsOf]
  have hHas : ∀ R ty, HasResource (.dict top) R ty ↔ ∃ props, dlookup (Key.str R) res = some (.dict props) ∧
      dlookup (Key.str "Type") props = some (.str ty) := by
    intro R ty
    constructor
    · rintro ⟨top', res', props, e, h1, h2, h3⟩
      cases e
      have := (dlookup_of_mem hwt.1 hres).symm.trans (dlookup_of_mem hwt.1 h1)
      cases this
      have hwp := wfDict_mem_cond hwr.2 h2
      simp only [Val.WF] at hwp
      exact ⟨props, dlookup_of_mem hwr.1 h2, dlookup_of_mem hwp.1 h3⟩
    · rintro ⟨props, h1, h2⟩
      exact ⟨top, res, props, rfl, hres, dlookup_mem h1, dlookup_mem h2⟩
  obtain ⟨tab, htab, hlook⟩ := attrLoop_spec S res [] (fun kv h => (hent kv h).2) hwr.1
  have hmods : ∀ k ∈ moduleNames res, ∃ n, k = .str n := by
    intro k hk
    obtain ⟨kv, h1, rfl⟩ := List.mem_map.1 hk
    exact (hent kv (List.mem_of_mem_filter h1)).1
  have hmod : ∀ M, Key.str M ∈ moduleNames res ↔ ∃ ty, HasResource (.dict top) M ty ∧ "::MODULE".toList <:+ ty.toList := by
    intro M
    unfold moduleNames
    simp only [List.mem_map, List.mem_filter, hHas]
    constructor
    · rintro ⟨⟨k, v⟩, ⟨h1, h2⟩, rfl⟩
      obtain ⟨props, rfl⟩ : ∃ props, v = .dict props := (hent _ h1).2
      simp only [isModule] at h2
      cases hty : dlookup (Key.str "Type") props with
      | none => rw [hty] at h2; cases h2
      | some w =>
        rw [hty] at h2
        cases w with
        | str ty => exact ⟨ty, ⟨props, dlookup_of_mem hwr.1 h1, hty⟩, endsWith_iff.1 h2⟩
        | _ => cases h2
    · rintro ⟨ty, ⟨props, h1, h2⟩, h3⟩
      exact ⟨(.str M, .dict props), ⟨dlookup_mem h1, by simp [isModule, h2, endsWith_iff.2 h3]⟩, rfl⟩
  have hcheck : ∀ R A, R ≠ "" → ∃ ks, checkResource tab (moduleNames res) (.str R) (some A) = .ok ks ∧
      (¬ StartsAs A "*." → (ks ≠ [] ↔ ¬ HasAttr S (.dict top) R A)) := by
    intro R A hR
    unfold checkResource
    have htr : (Val.str R).truthy = true := by simp [Val.truthy, hR]
    rw [if_pos htr]
    simp only [toKey, Option.bind_some]
    have hl := hlook (.str R)
    simp only [dlookup, Option.or_none] at hl
    rw [hl]
    cases hb : (dlookup (Key.str R) res).bind (entryAttrs S) with
    | some attrs =>
      refine ⟨_, rfl, fun hst => ?_⟩
      rw [not_iff_not]
      obtain ⟨v, hv, hv2⟩ := Option.bind_eq_some_iff.1 hb
      obtain ⟨props, rfl⟩ : ∃ props, v = .dict props := (hent _ (dlookup_mem hv)).2
      simp only [entryAttrs] at hv2
      cases hty : dlookup (Key.str "Type") props with
      | none => rw [hty] at hv2; cases hv2
      | some w =>
        rw [hty] at hv2
        cases w with
        | str ty =>
          dsimp only at hv2
          have hh : HasResource (.dict top) R ty := (hHas R ty).2 ⟨props, hv, hty⟩
          have huniq : ∀ ty', HasResource (.dict top) R ty' → ty' = ty := by
            intro ty' h
            obtain ⟨p', h1, h2⟩ := (hHas R ty').1 h
            rw [hv] at h1
            cases h1
            rw [hty] at h2
            cases h2
            rfl
          have hA : HasAttr S (.dict top) R A ↔ Offers S ty A := by
            constructor
            · rintro (⟨ty', h1, h2⟩ | ⟨M, ty', h1, h2, h3, h4⟩)
              · rw [huniq ty' h1] at h2; exact h2
              · exact absurd hh (h4 ty)
            · intro h; exact .inl ⟨ty, hh, h⟩
          rw [hA]
          by_cases ho : OpenType ty
          · rw [typeAttrs_open ho] at hv2
            cases hv2
            exact ⟨fun _ => .inl ho, fun _ => checkAttr_star hst⟩
          · rw [typeAttrs_closed ho (ht.stack R ty hh) (ht.custom R ty hh)] at hv2
            cases hd : dlookup ty S with
            | none => rw [hd] at hv2; cases hv2
            | some o =>
              rw [hd] at hv2
              simp only [Option.bind_some, id] at hv2
              subst hv2
              rw [checkAttr_closed (hS.nodup _ _ hd) (fun d => hS.noStar _ _ d hd) (fun B x d d' => hS.apart _ _ B x d d' hd)
                (fun M d => hS.maps _ _ M d hd)]
              constructor
              · intro h; exact .inr ⟨attrs, hd, h⟩
              · rintro (h | ⟨attrs', h1, h2⟩)
                · exact absurd h ho
                · rw [hd] at h1; cases h1; exact h2
        | _ => cases hv2
    | none =>
      dsimp only
      obtain ⟨b, hb1, hb2⟩ := inModule_spec R (moduleNames res) hmods
      have hno : ∀ ty, HasResource (.dict top) R ty → ¬ OpenType ty ∧ ∀ attrs, dlookup ty S ≠ some (some attrs) := by
        intro ty hh
        obtain ⟨props, h1, h2⟩ := (hHas R ty).1 hh
        rw [h1] at hb
        simp only [Option.bind_some, entryAttrs, h2] at hb
        have ho : ¬ OpenType ty := by
          intro ho
          rw [typeAttrs_open ho] at hb
          cases hb
        refine ⟨ho, fun attrs e => ?_⟩
        rw [typeAttrs_closed ho (ht.stack R ty hh) (ht.custom R ty hh), e] at hb
        cases hb
      have hA : HasAttr S (.dict top) R A ↔ b = true := by
        rw [hb2]
        constructor
        · rintro (⟨ty, h1, h2⟩ | ⟨M, ty, h1, h2, h3, h4⟩)
          · obtain ⟨h3, h4⟩ := hno ty h1
            rcases h2 with h2 | ⟨attrs, h2, _⟩
            · exact absurd h2 h3
            · exact absurd h2 (h4 attrs)
          · exact ⟨M, (hmod M).2 ⟨ty, h1, h2⟩, h3⟩
        · rintro ⟨M, h1, h2⟩
          obtain ⟨ty, h3, h4⟩ := (hmod M).1 h1
          refine .inr ⟨M, ty, h3, h4, h2, fun ty' h5 => ?_⟩
          have := ht.modules M ty R ty' h3 h4 h5 h2
          subst this
          exact (hno ty h3).1 (.inr (.inr (.inr (.inr h4))))
      rw [hb1]
      cases b with
      | true => exact ⟨[], rfl, fun _ => by simp [hA]⟩
      | false => exact ⟨[.resource], rfl, fun _ => by simp [hA]⟩
  obtain ⟨hsearch, hnod⟩ := C27_search_partial "Fn::GetAtt" (.dict top) ht.wf
  have hone : ∀ f ∈ searchDeepKeys "Fn::GetAtt" (.dict top) (.dict []), ∃ l, getAttOne tab (moduleNames res) f = .ok l := by
    rintro ⟨p, v⟩ hf
    obtain ⟨h1, q, rfl⟩ := (hsearch p v).1 hf
    obtain ⟨R, A, hR, hN⟩ := ht.named q v h1
    obtain ⟨ks, hks, _⟩ := hcheck R A hR
    exact ⟨_, by rw [getAttOne, checkGetAtt_named hR hN, hks]; rfl⟩
  obtain ⟨fs, hfs⟩ := collectM_ok hone
  refine ⟨fs, ?_, ?_⟩
  · unfold getAttRule validGetAtts
    rw [hro]
    dsimp only
    rw [htab]
    exact hfs
  · intro q v R A hat hR hst hN
    obtain ⟨ks, hks, hiff⟩ := hcheck R A hR
    rw [← hiff hst]
    have hmem : (q ++ [.str "Fn::GetAtt"], v) ∈ searchDeepKeys "Fn::GetAtt" (.dict top) (.dict []) :=
      (hsearch _ _).2 ⟨hat, q, rfl⟩
    have hval : getAttOne tab (moduleNames res) (q ++ [.str "Fn::GetAtt"], v) =
        .ok (ks.map (fun k => (q ++ [.str "Fn::GetAtt"], k))) := by
      rw [getAttOne, checkGetAtt_named hR hN, hks]; rfl
    constructor
    · rintro ⟨k, hk⟩ e
      obtain ⟨⟨p', v'⟩, h1, l, h2, h3⟩ := (mem_collectM hfs).1 hk
      have hp : p' = q ++ [.str "Fn::GetAtt"] := by
        unfold getAttOne at h2
        cases hc : checkGetAtt tab (moduleNames res) v' with
        | error e => rw [hc] at h2; cases h2
        | ok ks' =>
          rw [hc] at h2
          cases h2
          obtain ⟨k', _, e⟩ := List.mem_map.1 h3
          exact (Prod.mk.inj e).1
      subst hp
      have := List.inj_on_of_nodup_map hnod h1 hmem rfl
      cases this
      rw [hval] at h2
      cases h2
      rw [e] at h3
      cases h3
    · intro hne
      obtain ⟨k, rest, rfl⟩ := List.exists_cons_of_ne_nil hne
      exact ⟨k, (mem_collectM hfs).2 ⟨_, hmem, _, hval, by simp⟩⟩

/-! ### The full statement and where it fails -/

/-- an argument without functions: a text or a list of texts -/
def LiteralArg (v : Val) : Prop := (∃ s, v = .str s) ∨ ∃ parts : List String, v = .list (parts.map Val.str)

/-- C49 in full: for every specification and every template whose resources are objects and whose `Fn::GetAtt`s have
arguments without functions, the rule ends normally and reports exactly those that name no existing attribute. -/
def C49_statement : Prop :=
  ∀ (S : AttrSpecs) (t : Val), (∀ ty attrs, dlookup ty S = some (some attrs) → (attrs.map Prod.fst).Nodup) → t.WF →
    (∃ top res, t = .dict top ∧ (Key.str "Resources", Val.dict res) ∈ top ∧
      ∀ kv ∈ res, (∃ n, kv.1 = .str n) ∧ ∃ props, kv.2 = .dict props) →
    (∀ q v, At t (q ++ [.str "Fn::GetAtt"]) v → LiteralArg v) →
    ∃ fs, getAttRule S t (.dict []) = .ok fs ∧
      ∀ q v, At t (q ++ [.str "Fn::GetAtt"]) v →
        ((∃ k, (q ++ [.str "Fn::GetAtt"], k) ∈ fs) ↔ ¬ ∃ R A, NamesAttr v R A ∧ HasAttr S t R A)

/-- a template with one resource `R` of the type and one output with the argument -/
def attrTemplate (ty : String) (arg : Val) : Val :=
  .dict [(.str "Resources", .dict [(.str "R", .dict [(.str "Type", .str ty)])]),
    (.str "Outputs", .dict [(.str "O", .dict [(.str "Value", .dict [(.str "Fn::GetAtt", arg)])])])]

/-- the path of the `Fn::GetAtt` without its key -/
def attrPlace : Path := [.str "Outputs", .str "O", .str "Value"]

theorem attrTemplate_at (ty : String) (arg : Val) : At (attrTemplate ty arg) (attrPlace ++ [.str "Fn::GetAtt"]) arg :=
  .key (List.mem_cons_of_mem _ List.mem_cons_self) (.key List.mem_cons_self (.key List.mem_cons_self (.key List.mem_cons_self .here)))

theorem attrTemplate_only {ty s : String} {q : Path} {v : Val}
    (h : At (attrTemplate ty (.str s)) (q ++ [.str "Fn::GetAtt"]) v) : q = attrPlace ∧ v = .str s := by
  have hw : (attrTemplate ty (.str s)).WF := by simp [attrTemplate, Val.WF, Val.WFDict]
  have := ((C27_search_partial "Fn::GetAtt" _ hw).1 _ _).2 ⟨h, q, rfl⟩
  simp [searchDeepKeys, attrTemplate, searchVal, searchDict] at this
  refine ⟨?_, this.2⟩
  have h2 := this.1
  have : q ++ [Key.str "Fn::GetAtt"] = attrPlace ++ [.str "Fn::GetAtt"] := h2
  simpa using this

theorem attrTemplate_has {ty : String} {arg : Val} {R ty' : String} :
    HasResource (attrTemplate ty arg) R ty' ↔ R = "R" ∧ ty' = ty := by
  constructor
  · rintro ⟨top, res, props, e, h1, h2, h3⟩
    simp only [attrTemplate, Val.dict.injEq] at e
    subst e
    simp at h1
    subst h1
    simp at h2
    obtain ⟨rfl, rfl⟩ := h2
    simp at h3
    exact ⟨rfl, h3⟩
  · rintro ⟨rfl, rfl⟩
    exact ⟨_, _, _, rfl, List.mem_cons_self, List.mem_cons_self, List.mem_cons_self⟩

theorem attrTemplate_ok (ty s : String) :
    (attrTemplate ty (.str s)).WF ∧
    (∃ top res, attrTemplate ty (.str s) = .dict top ∧ (Key.str "Resources", Val.dict res) ∈ top ∧
      ∀ kv ∈ res, (∃ n, kv.1 = .str n) ∧ ∃ props, kv.2 = .dict props) ∧
    (∀ q v, At (attrTemplate ty (.str s)) (q ++ [.str "Fn::GetAtt"]) v → LiteralArg v) := by
  refine ⟨by simp [attrTemplate, Val.WF, Val.WFDict], ⟨_, _, rfl, List.mem_cons_self, ?_⟩, ?_⟩
  · intro kv h
    simp at h
    subst h
    exact ⟨⟨_, rfl⟩, _, rfl⟩
  · intro q v h
    rw [(attrTemplate_only h).2]
    exact .inl ⟨s, rfl⟩

/-- C49 fails: an argument without a dot makes the rule fail, and with it every finding is lost. -/
theorem C49_no_dot_violated : ¬ C49_statement := by
  intro h
  obtain ⟨h1, h2, h3⟩ := attrTemplate_ok "A::B" "Res"
  obtain ⟨fs, hfs, _⟩ := h [] (attrTemplate "A::B" (.str "Res")) (fun _ _ h => (by cases h)) h1 h2 h3
  have : getAttRule [] (attrTemplate "A::B" (.str "Res")) (.dict []) =
    .error (.valueError "not enough values to unpack (expected 2, got 1)") := by rfl
  rw [this] at hfs
  cases hfs

/-- C49 fails: every attribute of a stack set is accepted, since its type starts like that of a nested stack. -/
theorem C49_stack_set_violated :
    getAttRule [("AWS::CloudFormation::StackSet", some [])] (attrTemplate "AWS::CloudFormation::StackSet" (.str "R.Nothing"))
      (.dict []) = .ok [] ∧
    NamesAttr (.str "R.Nothing") "R" "Nothing" ∧
    ¬ HasAttr [("AWS::CloudFormation::StackSet", some [])]
      (attrTemplate "AWS::CloudFormation::StackSet" (.str "R.Nothing")) "R" "Nothing" := by
  refine ⟨by rfl, .inl ⟨rfl, by decide⟩, ?_⟩
  rintro (⟨ty, h1, h2⟩ | ⟨M, ty, h1, h2, h3, h4⟩)
  · obtain ⟨_, rfl⟩ := attrTemplate_has.1 h1
    rcases h2 with h2 | ⟨attrs, h2, h3⟩
    · rcases h2 with h | h | h | h | h
      · revert h; decide
      · revert h; unfold StartsAs; decide
      · revert h; unfold StartsAs; decide
      · revert h; decide
      · revert h; decide
    · simp [dlookup] at h2
      subst h2
      simp at h3
  · exact h4 _ (attrTemplate_has.2 ⟨rfl, rfl⟩)

/-- a type with an attribute and another that continues its name -/
def nestedAttrs : AttrSpecs := [("A::B", some [("End", ⟨none, none⟩), ("End.Port", ⟨none, none⟩)])]

/-- C49 fails: an attribute that exists is reported when its first part is an attribute too. -/
theorem C49_nested_violated :
    getAttRule nestedAttrs (attrTemplate "A::B" (.str "R.End.Port")) (.dict []) =
      .ok [(attrPlace ++ [.str "Fn::GetAtt"], .attribute)] ∧
    HasAttr nestedAttrs (attrTemplate "A::B" (.str "R.End.Port")) "R" "End.Port" :=
  ⟨by rfl, .inl ⟨"A::B", attrTemplate_has.2 ⟨rfl, rfl⟩, .inr ⟨_, rfl, .inl ⟨⟨none, none⟩, by decide⟩⟩⟩⟩

/-- C49 fails: an argument that starts with a dot names no resource and is not reported. -/
theorem C49_no_resource_violated :
    getAttRule [] (attrTemplate "A::B" (.str ".Arn")) (.dict []) = .ok [] ∧
    ¬ ∃ R A, NamesAttr (.str ".Arn") R A ∧ HasAttr [] (attrTemplate "A::B" (.str ".Arn")) R A := by
  refine ⟨by rfl, ?_⟩
  rintro ⟨R, A, hN, hA⟩
  have hR : R = "" := by
    rcases hN with ⟨e, hd⟩ | ⟨_, _, e, _⟩
    · injection e with e
      have := congrArg String.toList e
      rw [String.toList_append, String.toList_append] at this
      cases hr : R.toList with
      | nil => simpa using hr
      | cons c r =>
        rw [hr] at this
        have h2 : '.' = c := by
          have : ".Arn".toList = '.' :: ['A', 'r', 'n'] := rfl
          simp_all
        rw [hr, ← h2] at hd
        exact absurd List.mem_cons_self hd
    · cases e
  subst hR
  rcases hA with ⟨ty, h1, _⟩ | ⟨M, ty, h1, _, h3, _⟩
  · have := (attrTemplate_has.1 h1).1
    revert this
    decide
  · have := (attrTemplate_has.1 h1).1
    subst this
    revert h3
    unfold StartsAs
    decide

/-- C49 fails: an attribute of a custom resource whose name starts with `*.` is reported. -/
theorem C49_star_violated :
    getAttRule [] (attrTemplate "Custom::C" (.str "R.*.x")) (.dict []) =
      .ok [(attrPlace ++ [.str "Fn::GetAtt"], .attribute)] ∧
    HasAttr [] (attrTemplate "Custom::C" (.str "R.*.x")) "R" "*.x" :=
  ⟨by rfl, .inl ⟨"Custom::C", attrTemplate_has.2 ⟨rfl, rfl⟩, .inl (.inr (.inl (by unfold StartsAs; decide)))⟩⟩

/-! ### Hypotheses that can be met -/

/-- a type with a plain, a dotted and a map attribute -/
def plainSpecs : AttrSpecs := [("A::B", some [("Arn", ⟨none, none⟩), ("End.Port", ⟨none, none⟩), ("Outs", ⟨some "Map", none⟩)])]

theorem plainSpecs_lookup {ty : String} {attrs : List (String × AttrDecl)} (h : dlookup ty plainSpecs = some (some attrs)) :
    attrs = [("Arn", ⟨none, none⟩), ("End.Port", ⟨none, none⟩), ("Outs", ⟨some "Map", none⟩)] := by
  have := dlookup_mem h
  simp [plainSpecs] at this
  exact this.2

theorem plainSpecs_plain : PlainAttrs plainSpecs where
  nodup := by intro ty attrs h; rw [plainSpecs_lookup h]; decide
  noStar := by intro ty attrs d h; rw [plainSpecs_lookup h]; simp
  apart := by
    intro ty attrs A x d d' h h1 h2 h3
    rw [plainSpecs_lookup h] at h1 h3
    simp only [List.mem_cons, Prod.mk.injEq, List.not_mem_nil, or_false] at h1 h3
    rcases h3 with ⟨rfl, rfl⟩ | ⟨rfl, rfl⟩ | ⟨rfl, rfl⟩
    · rcases h1 with ⟨e, _⟩ | ⟨e, _⟩ | ⟨e, _⟩ <;>
      · have := congrArg (fun s => s.toList.take 4) e
        simp at this
    · exact absurd (by decide) h2
    · rfl
  maps := by
    intro ty attrs M d h h1 h2
    rw [plainSpecs_lookup h] at h1
    simp only [List.mem_cons, Prod.mk.injEq, List.not_mem_nil, or_false] at h1
    rcases h1 with ⟨rfl, rfl⟩ | ⟨rfl, rfl⟩ | ⟨rfl, rfl⟩
    · cases h2
    · cases h2
    · decide

theorem plainTemplate : PlainGetAtts (attrTemplate "A::B" (.str "R.Outs.x")) where
  wf := (attrTemplate_ok _ _).1
  resources := (attrTemplate_ok _ _).2.1
  named := by
    intro q v h
    rw [(attrTemplate_only h).2]
    exact ⟨"R", "Outs.x", by decide, .inl ⟨rfl, by decide⟩⟩
  stack := by
    intro R ty h hb
    obtain ⟨_, rfl⟩ := attrTemplate_has.1 h
    revert hb; unfold StartsAs; decide
  custom := by
    intro R ty h hb
    obtain ⟨_, rfl⟩ := attrTemplate_has.1 h
    revert hb; unfold StartsAs; decide
  modules := by
    intro M ty R ty' h1 _ h2 _
    rw [(attrTemplate_has.1 h1).1, (attrTemplate_has.1 h2).1]

example : PlainAttrs plainSpecs ∧ PlainGetAtts (attrTemplate "A::B" (.str "R.Outs.x")) ∧
    At (attrTemplate "A::B" (.str "R.Outs.x")) (attrPlace ++ [.str "Fn::GetAtt"]) (.str "R.Outs.x") ∧
    ¬ StartsAs "Outs.x" "*." ∧ NamesAttr (.str "R.Outs.x") "R" "Outs.x" :=
  ⟨plainSpecs_plain, plainTemplate, attrTemplate_at _ _, by unfold StartsAs; decide, .inl ⟨rfl, by decide⟩⟩

/-! ### Malformed and computed arguments -/

theorem checkResource_none {tab : AttrTable} {mods : List Key} {r : Val} {ks : List GaKind}
    (h : checkResource tab mods r none = .ok ks) : ∀ k ∈ ks, k = .resource := by
  unfold checkResource at h
  split at h
  · split at h
    · cases h
    · cases h
    · split at h
      · cases h; simp
      · split at h
        · cases h
        · cases h; simp
        · cases h; simp
  · cases h; simp

/-- what the rule reports at one `Fn::GetAtt` is what it reports about its argument -/
theorem getAtt_at {S : AttrSpecs} {t : Val} {fs : List (Path × GaKind)} (hw : t.WF)
    (h : getAttRule S t (.dict []) = .ok fs) {q : Path} {v : Val} (hat : At t (q ++ [.str "Fn::GetAtt"]) v) :
    ∃ tab mods ks, checkGetAtt tab mods v = .ok ks ∧ ∀ k, (q ++ [.str "Fn::GetAtt"], k) ∈ fs ↔ k ∈ ks := by
  unfold getAttRule at h
  split at h
  · cases h
  · rename_i tab htab
    split at h
    · cases h
    · rename_i res hres
      obtain ⟨hsearch, hnod⟩ := C27_search_partial "Fn::GetAtt" t hw
      have hmem := (hsearch _ _).2 ⟨hat, q, rfl⟩
      have hplace : ∀ (f : Path × Val) l, getAttOne tab (moduleNames res) f = .ok l →
          ∃ ks, checkGetAtt tab (moduleNames res) f.2 = .ok ks ∧ l = ks.map (fun k => (f.1, k)) := by
        intro f l hl
        unfold getAttOne at hl
        cases hc : checkGetAtt tab (moduleNames res) f.2 with
        | error e => rw [hc] at hl; cases hl
        | ok ks => rw [hc] at hl; cases hl; exact ⟨ks, rfl, rfl⟩
      cases hc : getAttOne tab (moduleNames res) (q ++ [.str "Fn::GetAtt"], v) with
      | error e =>
        exfalso
        have : ∀ {l : List (Path × Val)} {r : List (Path × GaKind)}, collectM (getAttOne tab (moduleNames res)) l = .ok r →
            ∀ f ∈ l, ∃ x, getAttOne tab (moduleNames res) f = .ok x := by
          intro l
          induction l with
          | nil => intro r _ f hf; cases hf
          | cons y ys ih =>
            intro r hr f hf
            rw [collectM] at hr
            cases hy : getAttOne tab (moduleNames res) y with
            | error e => rw [hy] at hr; cases hr
            | ok x =>
              rw [hy] at hr
              rcases List.mem_cons.1 hf with rfl | hf
              · exact ⟨x, hy⟩
              · cases hys : collectM (getAttOne tab (moduleNames res)) ys with
                | error e => rw [hys] at hr; cases hr
                | ok x => exact ih hys f hf
        obtain ⟨x, hx⟩ := this h _ hmem
        rw [hc] at hx
        cases hx
      | ok l =>
        obtain ⟨ks, hks, rfl⟩ := hplace _ _ hc
        refine ⟨tab, _, ks, hks, fun k => ?_⟩
        rw [mem_collectM h]
        constructor
        · rintro ⟨f, hf, l, hl, hk⟩
          obtain ⟨ks', hks', rfl⟩ := hplace _ _ hl
          obtain ⟨k', hk', he⟩ := List.mem_map.1 hk
          have hp := (Prod.mk.inj he).1
          have hkk := (Prod.mk.inj he).2
          subst hkk
          have := List.inj_on_of_nodup_map hnod hf hmem hp
          subst this
          rw [hks] at hks'
          cases hks'
          exact hk'
        · intro hk
          exact ⟨_, hmem, _, hc, List.mem_map.2 ⟨k, hk, rfl⟩⟩

/-- C49: a list of less than two elements and a text of less than two characters are reported, and only as that. -/
theorem C49_short {S : AttrSpecs} {t : Val} {fs : List (Path × GaKind)} (hw : t.WF)
    (h : getAttRule S t (.dict []) = .ok fs) {q : Path} {v : Val} (hat : At t (q ++ [.str "Fn::GetAtt"]) v)
    (hv : (∃ xs, v = .list xs ∧ xs.length < 2) ∨ ∃ s : String, v = .str s ∧ s.toList.length < 2) (k : GaKind) :
    (q ++ [.str "Fn::GetAtt"], k) ∈ fs ↔ k = .short := by
  obtain ⟨tab, mods, ks, hks, hk⟩ := getAtt_at hw h hat
  rw [hk]
  have : ks = [.short] := by
    rcases hv with ⟨xs, rfl, hx⟩ | ⟨s, rfl, hs⟩
    · match xs, hx with
      | [], _ => rw [checkGetAtt] at hks <;> (first | (cases hks; rfl) | simp)
      | [x], _ => rw [checkGetAtt] at hks <;> (first | (cases hks; rfl) | simp)
    · rw [checkGetAtt, if_pos hs] at hks
      cases hks
      rfl
  simp [this]

/-- C49: an attribute that is computed by a function is reported exactly if the function is not `Ref`; the attribute itself
is not reported. -/
theorem C49_computed {S : AttrSpecs} {t : Val} {fs : List (Path × GaKind)} (hw : t.WF)
    (h : getAttRule S t (.dict []) = .ok fs) {q : Path} {r w : Val} {k : Key} {rest : List Val}
    (hat : At t (q ++ [.str "Fn::GetAtt"]) (.list (r :: .dict [(k, w)] :: rest))) :
    ((q ++ [.str "Fn::GetAtt"], .function) ∈ fs ↔ k ≠ .str "Ref") ∧ (q ++ [.str "Fn::GetAtt"], .attribute) ∉ fs ∧
    (q ++ [.str "Fn::GetAtt"], .structure_) ∉ fs ∧ (q ++ [.str "Fn::GetAtt"], .short) ∉ fs := by
  obtain ⟨tab, mods, ks, hks, hk⟩ := getAtt_at hw h hat
  simp only [hk]
  rw [checkGetAtt, withKinds] at hks
  cases hc : checkResource tab mods r none with
  | error e => rw [hc] at hks; cases hks
  | ok ks' =>
    rw [hc] at hks
    cases hks
    have h1 := checkResource_none hc
    have h2 : ∀ x, x ≠ GaKind.resource → x ∉ ks' := fun x hx hm => hx (h1 x hm)
    refine ⟨?_, ?_, ?_, ?_⟩
    · rw [List.mem_append]
      constructor
      · rintro (hm | hm)
        · intro e; rw [if_pos e] at hm; cases hm
        · exact absurd hm (h2 _ (by simp))
      · intro e; rw [if_neg e]; exact .inl List.mem_cons_self
    all_goals
      rw [List.mem_append]
      rintro (hm | hm)
      · split at hm <;> simp at hm
      · exact absurd hm (h2 _ (by simp))

/-- C49: an attribute that is neither text nor an object is reported as a wrong structure, and nothing else is. -/
theorem C49_structure {S : AttrSpecs} {t : Val} {fs : List (Path × GaKind)} (hw : t.WF)
    (h : getAttRule S t (.dict []) = .ok fs) {q : Path} {r x : Val} {rest : List Val}
    (hat : At t (q ++ [.str "Fn::GetAtt"]) (.list (r :: x :: rest))) (hs : ∀ s, x ≠ .str s) (hd : ∀ d, x ≠ .dict d)
    (k : GaKind) : (q ++ [.str "Fn::GetAtt"], k) ∈ fs ↔ k = .structure_ := by
  obtain ⟨tab, mods, ks, hks, hk⟩ := getAtt_at hw h hat
  rw [hk]
  have : ks = [.structure_] := by
    cases x with
    | str s => exact absurd rfl (hs s)
    | dict d => exact absurd rfl (hd d)
    | _ => rw [checkGetAtt] at hks <;> (first | (cases hks; rfl) | simp)
  simp [this]

-- the hypotheses are met
example : getAttRule [] (attrTemplate "A::B" (.list [.str "R"])) (.dict []) =
    .ok [(attrPlace ++ [.str "Fn::GetAtt"], .short)] := by rfl
example : getAttRule plainSpecs (attrTemplate "A::B" (.list [.str "R", .dict [(.str "Fn::Sub", .str "x")]])) (.dict []) =
    .ok [(attrPlace ++ [.str "Fn::GetAtt"], .function)] := by rfl
example : getAttRule plainSpecs (attrTemplate "A::B" (.list [.str "R", .dict [(.str "Ref", .str "x")]])) (.dict []) =
    .ok [] := by rfl
example : getAttRule plainSpecs (attrTemplate "A::B" (.list [.str "R", .int 1])) (.dict []) =
    .ok [(attrPlace ++ [.str "Fn::GetAtt"], .structure_)] := by rfl

end CfnLint
