import Verif.Lemmas.Runner
/-
Properties C06-C08: deduplication and resource-level ignore directives.
-/
namespace CfnLint
open Spec

/-! ## C06 -/

/-- C06: the report has no two findings that are the same to a user, is a subsequence of the raw
findings and contains (up to sameness) every raw finding that is not suppressed. -/
theorem C06_unique_ordered_complete (dirs : Directives) (mand : List String) (raw : List Match) :
    ∃ out, runnerFilter dirs (mand.map .str) raw [] = .ok out ∧
      out.Pairwise (fun a b => ¬ SameFinding a b) ∧ out.Sublist raw ∧
      ∀ m ∈ raw, ¬ Suppressed Touches dirs mand m → ∃ u ∈ out, SameFinding m u := by
  obtain ⟨new, h1, h2, h3, _, h5⟩ := runnerFilter_str dirs mand raw [] .nil
  exact ⟨new, h1, by simpa using h3, h2, by simpa using h5⟩

/-- Witness finding used in the examples. -/
def mkMatch (id : String) (line col colEnd : Int) (msg : String := "m") : Match :=
  { line, col, lineEnd := line, colEnd, filename := "t.yaml", rule := { id }, message := msg }

-- duplicates collapse to the first, different columns stay apart, order is kept
example : runnerFilter [] [] [mkMatch "E2" 5 1 2, mkMatch "E1" 3 1 4, mkMatch "E2" 5 1 9,
    mkMatch "E2" 5 2 9] [] = .ok [mkMatch "E2" 5 1 2, mkMatch "E1" 3 1 4, mkMatch "E2" 5 2 9] := by
  decide

/-! ## C07 -/

/-- C07, exact behaviour of the code: the reported findings are precisely (up to sameness) the raw ones
that are not suppressed, where a directive counts for a finding it `Touches`. -/
theorem C07_filter_exact (dirs : Directives) (mand : List String) (raw : List Match) :
    ∃ out, runnerFilter dirs (mand.map .str) raw [] = .ok out ∧
      (∀ m ∈ out, ¬ Suppressed Touches dirs mand m) ∧
      (∀ m ∈ raw, ¬ Suppressed Touches dirs mand m → ∃ u ∈ out, SameFinding m u) := by
  obtain ⟨new, h1, _, _, h4, h5⟩ := runnerFilter_str dirs mand raw [] .nil
  exact ⟨new, h1, h4, by simpa using h5⟩

/-- The full C07 statement: suppression is by position inside the directive's resource. -/
def C07_statement : Prop :=
  ∀ (dirs : Directives) (mand : List String) (raw : List Match),
    ∃ out, runnerFilter dirs (mand.map .str) raw [] = .ok out ∧
      (∀ m ∈ out, ¬ Suppressed InSpan dirs mand m) ∧
      (∀ m ∈ raw, ¬ Suppressed InSpan dirs mand m → ∃ u ∈ out, SameFinding m u)

/-- C07 fails for a resource written on one line: a finding to the right of the resource is dropped. -/
theorem C07_directives_violated : ¬ C07_statement := by
  intro h
  obtain ⟨out, h1, _, h3⟩ := h [(.str "E3001", [⟨4, 5, 4, 30⟩])] [] [mkMatch "E3001" 4 40 50]
  have : out = [] := by
    have e : runnerFilter [(.str "E3001", [⟨4, 5, 4, 30⟩])] (([] : List String).map .str)
      [mkMatch "E3001" 4 40 50] [] = .ok [] := by decide
    rw [e] at h1; injection h1 with h1; exact h1.symm
  subst this
  obtain ⟨u, hu, _⟩ := h3 (mkMatch "E3001" 4 40 50) List.mem_cons_self (by
    rintro ⟨⟨ds, h1, d, h2, h4⟩, _⟩
    have e : dlookup (Val.str (mkMatch "E3001" 4 40 50).rule.id)
      ([(.str "E3001", [⟨4, 5, 4, 30⟩])] : Directives) = some [⟨4, 5, 4, 30⟩] := by decide
    rw [e] at h1; injection h1 with h1; subst h1
    simp only [List.mem_singleton] at h2; subst h2
    unfold InSpan PosLE mkMatch at h4
    simp at h4)
  cases hu

/-- C07 for resources spanning more than one line: exactly the findings inside the span of a resource
that names the rule are suppressed. Missing for the full C07: resources written on a single line. -/
theorem C07_directives_partial (dirs : Directives) (mand : List String) (raw : List Match)
    (hml : ∀ id ds, (id, ds) ∈ dirs → ∀ d ∈ ds, d.startLine < d.endLine) :
    ∃ out, runnerFilter dirs (mand.map .str) raw [] = .ok out ∧
      (∀ m ∈ out, ¬ Suppressed InSpan dirs mand m) ∧
      (∀ m ∈ raw, ¬ Suppressed InSpan dirs mand m → ∃ u ∈ out, SameFinding m u) := by
  obtain ⟨out, h1, h2, h3⟩ := C07_filter_exact dirs mand raw
  have hc : ∀ m, Suppressed Touches dirs mand m ↔ Suppressed InSpan dirs mand m := fun m =>
    suppressed_congr dirs mand m (fun ds hds d hd =>
      touches_iff_inSpan d m (hml _ ds (dlookup_mem hds) d hd))
  exact ⟨out, h1, fun m hm => by rw [← hc]; exact h2 m hm, fun m hm hs => h3 m hm (by rw [hc]; exact hs)⟩

/-- C07: a mandatory prefix protects a finding from every directive. -/
theorem C07_mandatory_protected (dirs : Directives) (mand : List String) (raw : List Match)
    (m : Match) (hm : m ∈ raw) (hp : ∃ p ∈ mand, IsPrefix p m.rule.id) :
    ∃ out, runnerFilter dirs (mand.map .str) raw [] = .ok out ∧ ∃ u ∈ out, SameFinding m u := by
  obtain ⟨out, h1, _, h3⟩ := C07_filter_exact dirs mand raw
  exact ⟨out, h1, h3 m hm (fun hs => hs.2 hp)⟩

/-- C07: directives naming other rules (exact match of the id, not prefix) have no effect. -/
theorem C07_other_rule_unaffected (dirs : Directives) (mand : List String) (raw : List Match)
    (m : Match) (hm : m ∈ raw) (hp : ∀ ds, (Val.str m.rule.id, ds) ∉ dirs) :
    ∃ out, runnerFilter dirs (mand.map .str) raw [] = .ok out ∧ ∃ u ∈ out, SameFinding m u := by
  obtain ⟨out, h1, _, h3⟩ := C07_filter_exact dirs mand raw
  exact ⟨out, h1, h3 m hm (fun hs => by
    obtain ⟨⟨ds, h, _⟩, _⟩ := hs
    exact hp ds (dlookup_mem h))⟩

/-- C07: only which directives there are matters, not their order or multiplicity. -/
theorem C07_order_irrelevant (dirs dirs' : Directives) (mand : List Val) (raw : List Match)
    (h : ∀ id, (dlookup (Val.str id) dirs).isSome = (dlookup (Val.str id) dirs').isSome)
    (h' : ∀ id d, DirIn dirs (.str id) d ↔ DirIn dirs' (.str id) d) :
    runnerFilter dirs mand raw [] = runnerFilter dirs' mand raw [] := by
  have hk : ∀ m, keepMatch dirs mand m = keepMatch dirs' mand m := by
    intro m
    unfold keepMatch
    have a := h m.rule.id
    have b := h' m.rule.id
    unfold DirIn at b
    cases h1 : dlookup (Val.str m.rule.id) dirs with
    | none =>
      cases h2 : dlookup (Val.str m.rule.id) dirs' with
      | none => rfl
      | some ds' => rw [h1, h2] at a; simp at a
    | some ds =>
      cases h2 : dlookup (Val.str m.rule.id) dirs' with
      | none => rw [h1, h2] at a; simp at a
      | some ds' =>
        rw [h1, h2] at b
        simp only [Option.some.injEq, exists_eq_left'] at b
        have : (ds.any fun d => dirCovers d m) = (ds'.any fun d => dirCovers d m) := by
          rw [Bool.eq_iff_iff, List.any_eq_true, List.any_eq_true]
          constructor
          · rintro ⟨d, hd, hc⟩; exact ⟨d, (b d).1 hd, hc⟩
          · rintro ⟨d, hd, hc⟩; exact ⟨d, (b d).2 hd, hc⟩
        simp only [this]
  have : ∀ acc, runnerFilter dirs mand raw acc = runnerFilter dirs' mand raw acc := by
    induction raw with
    | nil => intro acc; rfl
    | cons m ms ih =>
      intro acc
      unfold runnerFilter
      rw [hk m]
      simp only [ih]
  exact this []

/-- C07: the directive table of a template: a directive is recorded under an id exactly when an object
resource with a `Type` lists that id in `Metadata / cfn-lint / config / ignore_checks`; it spans from the
start of the resource's name to the end of its value. -/
theorem C07_directive_table (m : Span) (top : List (MKey × MVal)) (tbl : Directives)
    (h : getDirectives (.dict m top) = .ok tbl) (id : String) (d : Dir) :
    DirIn tbl (.str id) d ↔
      ∃ (rm : Span) (rs : List (MKey × MVal)) (name : MKey) (vm : Span) (body : List (MKey × MVal))
        (ty ic : MVal) (ids : List Val) (nm : Span),
        MVal.find (.str "Resources") top = some (.dict rm rs) ∧ (name, .dict vm body) ∈ rs ∧
        MVal.find (.str "Type") body = some ty ∧ ty.erase ≠ .none ∧
        ignoreChecksOf (.dict vm body) = .ok ic ∧ pyIter ic = .ok ids ∧ Val.str id ∈ ids ∧
        name.mark = some nm ∧ d = ⟨nm.sl + 1, nm.sc + 1, vm.el + 1, vm.ec + 1⟩ := by
  unfold getDirectives at h
  cases h1 : mGetResources (.dict m top) with
  | error e => rw [h1] at h; simp at h
  | ok rs =>
    rw [h1] at h
    simp only at h
    rw [directivesLoop_ok h]
    have hne : ¬ DirIn [] (Val.str id) d := by simp [DirIn, dlookup]
    simp only [hne, false_or]
    unfold mGetResources MVal.get at h1
    simp only at h1
    cases hres : MVal.find (.str "Resources") top with
    | none =>
      rw [hres] at h1
      simp only [Option.getD_none, List.filter_nil, Except.ok.injEq] at h1
      subst h1
      simp
    | some v =>
      rw [hres] at h1
      simp only [Option.getD_some] at h1
      cases v with
      | dict rm rs0 =>
        simp only [Except.ok.injEq] at h1
        subst h1
        constructor
        · rintro ⟨⟨name, val⟩, hkv, ic, ids, nl, vl, a1, a2, a3, a4, a5, a6⟩
          rw [List.mem_filter] at hkv
          obtain ⟨hkv, hf⟩ := hkv
          cases val with
          | dict vm body =>
            simp only at hf
            cases ht : MVal.find (.str "Type") body with
            | none => rw [ht] at hf; simp at hf
            | some ty =>
              rw [ht] at hf
              simp only [MVal.loc, Except.ok.injEq] at a5
              subst a5
              unfold MKey.loc at a4
              cases hm : name.mark with
              | none => simp [hm] at a4
              | some nm =>
                simp only [hm, Except.ok.injEq] at a4; subst a4
                refine ⟨rm, rs0, name, vm, body, ty, ic, ids, nm, rfl, hkv, ht, ?_, a1, a2, a3, hm, a6⟩
                cases ty <;> simp_all [MVal.erase]
          | _ => simp at hf
        · rintro ⟨rm', rs', name, vm, body, ty, ic, ids, nm, b1, b2, b3, b4, b5, b6, b7, b8, b9⟩
          injection b1 with b1
          injection b1 with b11 b12
          subst b11; subst b12
          refine ⟨(name, .dict vm body), ?_, ic, ids, nm, vm, b5, b6, b7, ?_, rfl, b9⟩
          · rw [List.mem_filter]
            refine ⟨b2, ?_⟩
            simp only [b3]
            cases ty <;> simp_all [MVal.erase]
          · simp [MKey.loc, b8]
      | _ =>
        simp only [Except.ok.injEq] at h1
        subst h1
        simp

/-- Witness template: one resource of 4 lines with a directive. -/
def c07Template : MVal :=
  .dict ⟨0, 0, 9, 0⟩ [(⟨.str "Resources", some ⟨0, 0, 0, 9⟩⟩, .dict ⟨1, 2, 9, 0⟩
    [(⟨.str "A", some ⟨1, 2, 1, 3⟩⟩, .dict ⟨2, 4, 5, 2⟩
      [(⟨.str "Type", none⟩, .str none "AWS::SNS::Topic"),
       (⟨.str "Metadata", none⟩, .dict default [(⟨.str "cfn-lint", none⟩, .dict default
         [(⟨.str "config", none⟩, .dict default [(⟨.str "ignore_checks", none⟩,
           .list default [.str none "E3001", .str none "W1"])])])])]),
     (⟨.str "B", some ⟨5, 2, 5, 3⟩⟩, .dict ⟨6, 4, 9, 0⟩ [(⟨.str "Type", none⟩, .str none "T")])])]

example : getDirectives c07Template =
    .ok [(.str "E3001", [⟨2, 3, 6, 3⟩]), (.str "W1", [⟨2, 3, 6, 3⟩])] := by decide
-- the finding in A's body is dropped, the one in B and the one on another rule are kept, and W1 is
-- kept because it is mandatory
example : runnerRun c07Template (.ok [mkMatch "E3001" 4 5 9, mkMatch "E3001" 8 5 9,
    mkMatch "E3002" 4 5 9, mkMatch "W1" 4 5 9]) [.str "W"] =
    .ok [mkMatch "E3001" 8 5 9, mkMatch "E3002" 4 5 9, mkMatch "W1" 4 5 9] := by decide

/-! ## C08 -/

/-- The full C08 statement: a finding outside the spans of all directives for its rule is reported. -/
def C08_statement : Prop :=
  ∀ (dirs : Directives) (mand : List String) (raw : List Match) (m : Match), m ∈ raw →
    (∀ d, DirIn dirs (.str m.rule.id) d → ¬ InSpan d m) →
    ∃ out, runnerFilter dirs (mand.map .str) raw [] = .ok out ∧ ∃ u ∈ out, SameFinding m u

/-- C08 fails: `{"A": {...ignore...}, "B": {...}}` on one line; the directive on `A` hides the finding
on `B`. -/
theorem C08_other_resource_violated : ¬ C08_statement := by
  intro h
  obtain ⟨out, h1, u, hu, _⟩ := h [(.str "E3001", [⟨1, 16, 1, 90⟩])] [] [mkMatch "E3001" 1 120 130]
    (mkMatch "E3001" 1 120 130) List.mem_cons_self (by
      rintro d ⟨ds, h1, h2⟩
      have e : dlookup (Val.str (mkMatch "E3001" 1 120 130).rule.id)
        ([(.str "E3001", [⟨1, 16, 1, 90⟩])] : Directives) = some [⟨1, 16, 1, 90⟩] := by decide
      rw [e] at h1; injection h1 with h1; subst h1
      simp only [List.mem_singleton] at h2; subst h2
      unfold InSpan PosLE mkMatch
      simp)
  have e : runnerFilter [(.str "E3001", [⟨1, 16, 1, 90⟩])] (([] : List String).map .str)
      [mkMatch "E3001" 1 120 130] [] = .ok [] := by decide
  rw [e] at h1; injection h1 with h1; subst h1; cases hu

/-- C08 when every directive for the rule either spans several lines or has neither its first nor its
last line in common with the finding. Missing: single-line resources sharing the finding's line. -/
theorem C08_other_resource_partial (dirs : Directives) (mand : List String) (raw : List Match)
    (m : Match) (hm : m ∈ raw)
    (hout : ∀ d, DirIn dirs (.str m.rule.id) d → ¬ InSpan d m)
    (hml : ∀ d, DirIn dirs (.str m.rule.id) d →
      d.startLine < d.endLine ∨ (m.line ≠ d.startLine ∧ m.line ≠ d.endLine)) :
    ∃ out, runnerFilter dirs (mand.map .str) raw [] = .ok out ∧ ∃ u ∈ out, SameFinding m u := by
  obtain ⟨out, h1, _, h3⟩ := C07_filter_exact dirs mand raw
  refine ⟨out, h1, h3 m hm ?_⟩
  rintro ⟨⟨ds, hds, d, hd, ht⟩, _⟩
  rcases hml d ⟨ds, hds, hd⟩ with hl | ⟨hl1, hl2⟩
  · exact hout d ⟨ds, hds, hd⟩ ((touches_iff_inSpan d m hl).1 ht)
  · unfold Touches at ht
    apply hout d ⟨ds, hds, hd⟩
    unfold InSpan PosLE
    omega

-- two findings around a multi-line span on its border lines
example : runnerFilter [(.str "E3001", [⟨4, 5, 8, 10⟩])] []
    [mkMatch "E3001" 4 1 4, mkMatch "E3001" 4 5 9, mkMatch "E3001" 8 6 10, mkMatch "E3001" 8 11 14] []
    = .ok [mkMatch "E3001" 4 1 4, mkMatch "E3001" 8 11 14] := by decide

end CfnLint
