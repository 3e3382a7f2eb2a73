import Verif.Props.RunUnion
/-
Property C157: templates that cannot be decoded are reported, and do not influence what is reported for the others.
-/
namespace CfnLint

open Spec

variable {objs : List RuleObj} {args : Sources} {all : List String} {regions : List Val} {S : TypeSpecs} {beh : RuleObj → Behaviour}
  {name : Val → String} {mark : Val → MVal} {print : List Match → PyM Unit} {ds : List Decoded}

/-- neither the command nor a template asks to ignore templates that cannot be decoded -/
def Spec.NeverIgnored (args : Sources) (ds : List Decoded) : Prop :=
  ∀ targs, (targs = [] ∨ ∃ d ∈ ds, setTemplateArgs d.template = .ok targs) → ignoreBadTemplate { args with template := targs } ≠ .ok true

/-- the part of the configuration left by the templates before -/
def LeftBy (ds : List Decoded) (st : LintState) : Prop := st.templateArgs = [] ∨ ∃ d ∈ ds, setTemplateArgs d.template = .ok st.templateArgs

theorem lint_bad {all' : List Decoded} (hn : NeverIgnored args all') {st : LintState} (hl : LeftBy all' st)
    (hst : ∃ b, ignoreBadTemplate (sourcesWith args st) = .ok b) {d : Decoded} (hd : d.errors ≠ []) (check : Val → Option Coll → RunM (List Match))
    (rest : List Decoded) : lintAll objs args check st (d :: rest) =
      match lintAll objs args check st rest with
      | .error e => .error e
      | .ok outs => .ok (d.errors :: outs) := by
  obtain ⟨b, hb⟩ := hst
  have hf : b = false := by
    cases b with
    | false => rfl
    | true => exact absurd hb (hn _ hl)
  subst hf
  obtain ⟨e, es, he⟩ := List.exists_cons_of_ne_nil hd
  rw [lintAll]
  simp only [getTemplateRules, hb, he, Bool.and_false, Bool.false_and]
  rfl

/-- **C157** When templates that cannot be decoded are never ignored, and the run on the others is ready to start, a run completes; it reports the errors of
decoding for every template that cannot be decoded, and for every other template what the run on that template alone reports. -/
theorem C157_bad (h : ReadyRun objs args all regions beh mark print (ds.filter (fun d => d.errors.isEmpty)))
    (hb : ∀ r r' : RuleObj, r.info = r'.info → beh r = beh r') (hn : NeverIgnored args (ds.filter (fun d => d.errors.isEmpty))) :
    ∃ outs, lintAll objs args (checkWith all regions S beh name mark) {} ds = .ok outs ∧
      List.Forall₂ (fun d out => (d.errors ≠ [] ∧ out = d.errors) ∨
        (d.errors = [] ∧ lintAll objs args (checkWith all regions S beh name mark) {} [d] = .ok [out])) ds outs := by
  obtain ⟨b0, hb0⟩ := h.start
  suffices key : ∀ (l : List Decoded) (st : LintState), (∀ d ∈ l, d ∈ ds) → Reach objs args st → (∃ b, ignoreBadTemplate (sourcesWith args st) = .ok b) →
      LeftBy (ds.filter (fun d => d.errors.isEmpty)) st →
      ∃ outs, lintAll objs args (checkWith all regions S beh name mark) st l = .ok outs ∧
        List.Forall₂ (fun d out => (d.errors ≠ [] ∧ out = d.errors) ∨
          (d.errors = [] ∧ lintAll objs args (checkWith all regions S beh name mark) {} [d] = .ok [out])) l outs from
    key ds {} (fun d hd => hd) .init ⟨b0, hb0⟩ (.inl rfl)
  intro l
  induction l with
  | nil => exact fun st _ _ _ _ => ⟨[], rfl, .nil⟩
  | cons d l ih =>
    intro st hm hr hst hl
    by_cases hd : d.errors = []
    · have hmem : d ∈ ds.filter (fun d => d.errors.isEmpty) := List.mem_filter.2 ⟨hm d List.mem_cons_self, by rw [hd]; rfl⟩
      obtain ⟨out, hout⟩ := lint_one (S := S) (name := name) h hb hmem
      obtain ⟨st', hr', hst', hleft, e⟩ := hout st hr hst
      obtain ⟨outs, ho, hf⟩ := ih st' (fun x hx => hm x (List.mem_cons_of_mem _ hx)) hr' hst' (.inr ⟨d, hmem, hleft⟩)
      obtain ⟨st0, -, -, -, e0⟩ := hout {} .init ⟨b0, hb0⟩
      exact ⟨out :: outs, by rw [e, ho], .cons (.inr ⟨hd, by rw [e0]; rfl⟩) hf⟩
    · obtain ⟨outs, ho, hf⟩ := ih st (fun x hx => hm x (List.mem_cons_of_mem _ hx)) hr hst hl
      exact ⟨d.errors :: outs, by rw [lint_bad hn hl hst hd, ho], .cons (.inl ⟨hd, rfl⟩) hf⟩

/-- a template that could not be decoded between two that could -/
def badBetween (x : Match) : List Decoded := [⟨asksToIgnore "W1001", []⟩, ⟨.none, [x]⟩, ⟨asksToIgnore "W1002", []⟩]

theorem badBetween_filter (x : Match) : (badBetween x).filter (fun d => d.errors.isEmpty) =
    [⟨asksToIgnore "W1001", []⟩] ++ [⟨asksToIgnore "W1002", []⟩] := rfl

example (x : Match) : ∃ a c, lintAll (withIds ["W1001"]) (c50Args [] false []) (checkWith [] [] ⟨[], []⟩ onlyWarns (fun _ => "t") (markAll default)) {}
    (badBetween x) = .ok [a, [x], c] := by
  obtain ⟨outs, h1, h2⟩ := C157_bad (S := ⟨[], []⟩) (name := fun _ => "t") (ds := badBetween x) (by rw [badBetween_filter]; exact twoIgnoring_steady.ready)
    twoIgnoring_steady.same (by
      rw [badBetween_filter]
      rintro targs (rfl | ⟨d, hd, ht⟩)
      · decide
      · rcases List.mem_append.1 hd with hd | hd <;> cases List.mem_singleton.1 hd <;>
          (rw [(asksToIgnore_args (by simp)).1] at ht; cases ht; decide))
  unfold badBetween at h1 h2 ⊢
  rcases h2 with _ | ⟨a, _ | ⟨b, _ | ⟨c, _ | _⟩⟩⟩
  rcases b with ⟨-, rfl⟩ | ⟨hb, -⟩
  · exact ⟨_, _, h1⟩
  · cases hb

end CfnLint
