import Verif.Lemmas.Refs
/-
C33: references.
-/
namespace CfnLint
open Spec

/-- a finding of the reference check: at the path of the object, about the name -/
def RefFinding (q : Path) (s : String) : Path × String :=
  (q, "Ref " ++ s ++ " not found as a resource or parameter")

/-- **C33** in full: in a template whose sections are objects with plain names, a reference is reported at its
place exactly when what it names may not be referred to. -/
def C33_statement : Prop := ∀ (rx : String → String → PyM Bool) (t : Val),
  MatchesPrefixes rx → SectionsOk t → (∀ q v, At t (q ++ [.str "Ref"]) v → ∃ s, v = .str s) →
  ∃ l, refExist rx t (.dict []) = .ok l ∧
    ∀ q s, At t (q ++ [.str "Ref"]) (.str s) → (RefFinding q s ∈ l ↔ ¬ Referable t s)

theorem refLoop_spec {rx : String → String → PyM Bool} {keys : List Key} {found : String → Prop}
    (hk : ∀ s, ∃ b, regexContains rx keys (.str s) = .ok b ∧ (b = true ↔ found s)) :
    ∀ refs : List (Path × Val), (∀ pv ∈ refs, ∀ i, pv.2 ≠ .int i) → (∀ pv ∈ refs, ∀ b, pv.2 ≠ .bool b) →
    ∃ l, refLoop rx keys refs = .ok l ∧
      ∀ f, f ∈ l ↔ ∃ p s, (p, Val.str s) ∈ refs ∧ ¬ found s ∧ f = RefFinding p.dropLast s
  | [], _, _ => ⟨[], rfl, by simp⟩
  | (p, v) :: refs, hi, hb => by
    obtain ⟨l, h1, h2⟩ := refLoop_spec hk refs (fun x hx => hi x (List.mem_cons_of_mem _ hx))
      (fun x hx => hb x (List.mem_cons_of_mem _ hx))
    have hother : isRefName v = false → ∃ l, refLoop rx keys ((p, v) :: refs) = .ok l ∧
        ∀ f, f ∈ l ↔ ∃ p' s, (p', Val.str s) ∈ (p, v) :: refs ∧ ¬ found s ∧ f = RefFinding p'.dropLast s := by
      intro hv
      refine ⟨l, by rw [refLoop, hv]; exact h1, fun f => ?_⟩
      rw [h2]
      constructor
      · rintro ⟨p', s, hm, h⟩
        exact ⟨p', s, List.mem_cons_of_mem _ hm, h⟩
      · rintro ⟨p', s, hm, h⟩
        rcases List.mem_cons.1 hm with he | hm
        · injection he with _ he
          subst he
          cases hv
        · exact ⟨p', s, hm, h⟩
    match v, hi, hb, hother with
    | .str s, _, _, _ =>
      obtain ⟨b, hb1, hb2⟩ := hk s
      refine ⟨_, by rw [refLoop]; simp only [isRefName, if_true, hb1, h1]; rfl, fun f => ?_⟩
      constructor
      · intro hf
        cases b with
        | true =>
          simp only [if_true] at hf
          obtain ⟨p', s', hm, h⟩ := (h2 f).1 hf
          exact ⟨p', s', List.mem_cons_of_mem _ hm, h⟩
        | false =>
          simp only [Bool.false_eq_true, if_false] at hf
          rcases List.mem_cons.1 hf with rfl | hf
          · exact ⟨p, s, List.mem_cons_self, fun hfd => (by cases hb2.2 hfd), rfl⟩
          · obtain ⟨p', s', hm, h⟩ := (h2 f).1 hf
            exact ⟨p', s', List.mem_cons_of_mem _ hm, h⟩
      · rintro ⟨p', s', hm, hn, rfl⟩
        rcases List.mem_cons.1 hm with he | hm
        · injection he with he1 he2
          injection he2 with he2
          subst he1 he2
          cases b with
          | true => exact absurd (hb2.1 rfl) hn
          | false =>
            simp only [Bool.false_eq_true, if_false]
            exact List.mem_cons_self
        · have := (h2 _).2 ⟨p', s', hm, hn, rfl⟩
          cases b with
          | true => simpa using this
          | false =>
            simp only [Bool.false_eq_true, if_false]
            exact List.mem_cons_of_mem _ this
    | .int i, hi, _, _ => exact absurd rfl (hi _ List.mem_cons_self i)
    | .bool b, _, hb, _ => exact absurd rfl (hb _ List.mem_cons_self b)
    | .none, _, _, h => exact h rfl
    | .flt _, _, _, h => exact h rfl
    | .list _, _, _, h => exact h rfl
    | .dict _, _, _, h => exact h rfl

/-- **C33**, partial: exactly which references are reported, and where: those that do not begin with a name
that may be referred to. (The check compares with prefixes: see `C33_prefix_violated`. References that are
numbers or Booleans are excluded: see `C33_number_violated`.) -/
theorem C33_reported_partial (rx : String → String → PyM Bool) (t g : Val) (hrx : MatchesPrefixes rx)
    (ht : SectionsOk t)
    (hi : ∀ q v, At t (q ++ [.str "Ref"]) v ∨ At g (q ++ [.str "Ref"]) v →
      (∀ i, v ≠ .int i) ∧ ∀ b, v ≠ .bool b) :
    ∃ l, refExist rx t g = .ok l ∧ ∀ f, f ∈ l ↔ ∃ q s,
      (At t (q ++ [.str "Ref"]) (.str s) ∨ At g (q ++ [.str "Ref"]) (.str s)) ∧
      (∀ n, Declared t n ∨ IsModule t n → ¬ n.toList <+: s.toList) ∧ f = RefFinding q s := by
  obtain ⟨tab, htab, hkeys⟩ := validRefs_keys ht
  have hk : ∀ s, ∃ b, regexContains rx (tab.map Prod.fst) (.str s) = .ok b ∧
      (b = true ↔ ∃ n, (Declared t n ∨ IsModule t n) ∧ n.toList <+: s.toList) := by
    intro s
    obtain ⟨b, h1, h2⟩ := regexContains_spec hrx s (tab.map Prod.fst) (by
      intro k hk
      rcases (hkeys k).1 hk with ⟨n, rfl, hd⟩ | ⟨m, hm, rfl⟩
      · exact ⟨n, declared_plain ht hd, .inl rfl⟩
      · exact ⟨m, module_plain ht hm, .inr rfl⟩)
    refine ⟨b, h1, h2.trans ⟨?_, ?_⟩⟩
    · rintro ⟨n, hn, hm | hm, hp⟩
      · rcases (hkeys _).1 hm with ⟨n', he, hd⟩ | ⟨m, _, he⟩
        · injection he with he; subst he
          exact ⟨n, .inl hd, hp⟩
        · injection he with he
          exfalso
          subst he
          have := hn '.' (by rw [String.toList_append]; exact List.mem_append_right _ (by decide))
          exact this (by decide)
      · rcases (hkeys _).1 hm with ⟨n', he, hd⟩ | ⟨m, hmod, he⟩
        · injection he with he
          exfalso
          have hpn := declared_plain ht hd
          rw [← he] at hpn
          have := hpn '.' (by rw [String.toList_append]; exact List.mem_append_right _ (by decide))
          exact this (by decide)
        · injection he with he
          have : n = m := by
            have := congrArg String.toList he
            rw [String.toList_append, String.toList_append] at this
            exact String.toList_inj.1 (List.append_cancel_right this)
          subst this
          exact ⟨n, .inr hmod, hp⟩
    · rintro ⟨n, hd | hd, hp⟩
      · exact ⟨n, declared_plain ht hd, .inl ((hkeys _).2 (.inl ⟨n, rfl, hd⟩)), hp⟩
      · exact ⟨n, module_plain ht hd, .inr ((hkeys _).2 (.inr ⟨n, hd, rfl⟩)), hp⟩
  have hsearch : ∀ p v, (p, v) ∈ searchDeepKeys "Ref" t g ↔
      ∃ q, p = q ++ [.str "Ref"] ∧ (At t p v ∨ At g p v) := by
    intro p v
    unfold searchDeepKeys
    rw [List.mem_append, mem_searchVal, mem_searchVal]
    simp only [List.nil_append, Found]
    constructor
    · rintro (⟨q, rfl, h1, q', h2⟩ | ⟨q, rfl, h1, q', h2⟩)
      · exact ⟨q', h2, .inl h1⟩
      · exact ⟨q', h2, .inr h1⟩
    · rintro ⟨q, h1, h2 | h2⟩
      · exact .inl ⟨p, rfl, h2, q, h1⟩
      · exact .inr ⟨p, rfl, h2, q, h1⟩
  obtain ⟨l, h1, h2⟩ := refLoop_spec hk (searchDeepKeys "Ref" t g)
    (by
      rintro ⟨p, v⟩ hm
      obtain ⟨q, rfl, ha⟩ := (hsearch p v).1 hm
      exact (hi q v ha).1)
    (by
      rintro ⟨p, v⟩ hm
      obtain ⟨q, rfl, ha⟩ := (hsearch p v).1 hm
      exact (hi q v ha).2)
  refine ⟨l, by simp only [refExist, htab, h1], fun f => ?_⟩
  rw [h2]
  constructor
  · rintro ⟨p, s, hm, hn, rfl⟩
    obtain ⟨q, rfl, ha⟩ := (hsearch p _).1 hm
    exact ⟨q, s, ha, fun n hd hp => hn ⟨n, hd, hp⟩, by rw [List.dropLast_concat]⟩
  · rintro ⟨q, s, ha, hn, rfl⟩
    refine ⟨q ++ [.str "Ref"], s, (hsearch _ _).2 ⟨q, rfl, ha⟩, ?_, by rw [List.dropLast_concat]⟩
    rintro ⟨n, hd, hp⟩
    exact hn n hd hp

theorem refFinding_inj {q q' : Path} {s s' : String} (h : RefFinding q s = RefFinding q' s') :
    q = q' ∧ s = s' := by
  unfold RefFinding at h
  injection h with h1 h2
  refine ⟨h1, ?_⟩
  have := congrArg String.toList h2
  rw [String.toList_append, String.toList_append, String.toList_append, String.toList_append] at this
  exact String.toList_inj.1 (List.append_cancel_left (List.append_cancel_right this))

/-- **C33** There are no false alarms: a reference to something declared, or to a resource of a module, is not
reported. -/
theorem C33_no_false_alarm (rx : String → String → PyM Bool) (t g : Val) (hrx : MatchesPrefixes rx)
    (ht : SectionsOk t)
    (hi : ∀ q v, At t (q ++ [.str "Ref"]) v ∨ At g (q ++ [.str "Ref"]) v →
      (∀ i, v ≠ .int i) ∧ ∀ b, v ≠ .bool b)
    (s : String) (hs : Referable t s) :
    ∃ l, refExist rx t g = .ok l ∧ ∀ q, RefFinding q s ∉ l := by
  obtain ⟨l, h1, h2⟩ := C33_reported_partial rx t g hrx ht hi
  refine ⟨l, h1, fun q hm => ?_⟩
  obtain ⟨q', s', _, hn, he⟩ := (h2 _).1 hm
  obtain ⟨_, rfl⟩ := refFinding_inj he
  rcases hs with hs | ⟨m, hm, hp⟩
  · exact hn s (.inl hs) List.prefix_rfl
  · exact hn m (.inr hm) hp

/-- **C33** The full statement holds for references of which no proper prefix is declared. -/
theorem C33_exact_partial (rx : String → String → PyM Bool) (t : Val) (hrx : MatchesPrefixes rx)
    (ht : SectionsOk t) (hstr : ∀ q v, At t (q ++ [.str "Ref"]) v → ∃ s, v = .str s) :
    ∃ l, refExist rx t (.dict []) = .ok l ∧
      ∀ q s, At t (q ++ [.str "Ref"]) (.str s) →
        (∀ n, Declared t n → n.toList <+: s.toList → n = s) → (RefFinding q s ∈ l ↔ ¬ Referable t s) := by
  have hg : ∀ q v, ¬ At (.dict []) (q ++ [.str "Ref"]) v := by
    intro q v h
    cases q with
    | nil => cases h with | key hm _ => cases hm
    | cons k q => cases h with | key hm _ => cases hm
  obtain ⟨l, h1, h2⟩ := C33_reported_partial rx t (.dict []) hrx ht (by
    rintro q v (h | h)
    · obtain ⟨s, rfl⟩ := hstr q v h
      exact ⟨fun i => by simp, fun b => by simp⟩
    · exact absurd h (hg q v))
  refine ⟨l, h1, fun q s ha hpre => ?_⟩
  rw [h2]
  constructor
  · rintro ⟨q', s', _, hn, he⟩ hr
    obtain ⟨_, rfl⟩ := refFinding_inj he
    rcases hr with hs | ⟨m, hm, hp⟩
    · exact hn s (.inl hs) List.prefix_rfl
    · exact hn m (.inr hm) hp
  · intro hr
    refine ⟨q, s, .inl ha, ?_, rfl⟩
    rintro n (hd | hm) hp
    · rw [hpre n hd hp] at hd
      exact hr (.inl hd)
    · exact hr (.inr ⟨n, hm, hp⟩)

/-! ### Witnesses -/

/-- a matcher for plain patterns, possibly followed by `.*` -/
def exRx (k s : String) : PyM Bool :=
  if ".*".toList <:+ k.toList then .ok (decide (k.toList.dropLast.dropLast <+: s.toList))
  else .ok (decide (k.toList <+: s.toList))

theorem exRx_ok : MatchesPrefixes exRx := by
  intro k s hk
  have h1 : ¬ ".*".toList <:+ k.toList := by
    intro h
    exact hk '.' (h.mem (by decide)) (by decide)
  have h2 : ".*".toList <:+ (k ++ ".*").toList := by
    rw [String.toList_append]; exact List.suffix_append _ _
  have h3 : (k ++ ".*").toList.dropLast.dropLast = k.toList := by
    rw [String.toList_append]
    have : ".*".toList = ['.', '*'] := by decide
    rw [this]
    simp [List.dropLast_append_of_ne_nil, List.dropLast]
  unfold exRx
  rw [if_neg h1, if_pos h2, h3]
  exact ⟨rfl, rfl⟩

/-- a parameter `Env`, a resource `Bucket`, a module `Mod` and four references -/
def exRefs (r1 r2 r3 r4 : String) : Val := .dict [
  (.str "Parameters", .dict [(.str "Env", .dict [(.str "Type", .str "String")])]),
  (.str "Resources", .dict [
    (.str "Bucket", .dict [(.str "Type", .str "AWS::S3::Bucket")]),
    (.str "Mod", .dict [(.str "Type", .str "My::Own::Thing::MODULE")])]),
  (.str "Outputs", .dict [
    (.str "O1", .dict [(.str "Value", .dict [(.str "Ref", .str r1)])]),
    (.str "O2", .dict [(.str "Value", .dict [(.str "Ref", .str r2)])]),
    (.str "O3", .dict [(.str "Value", .dict [(.str "Ref", .str r3)])]),
    (.str "O4", .dict [(.str "Value", .dict [(.str "Ref", .str r4)])])])]

theorem exRefs_ok (r1 r2 r3 r4 : String) : SectionsOk (exRefs r1 r2 r3 r4) := by
  have hw : (exRefs r1 r2 r3 r4).WF := by simp [exRefs, Val.WF, Val.WFDict]
  refine ⟨hw, ⟨_, rfl⟩, ?_, ?_⟩
  · intro s hs
    rw [exRefs, at_dict_one] at hs
    simp only [List.mem_cons, Prod.mk.injEq, Key.str.injEq, List.not_mem_nil, or_false] at hs
    rcases hs with ⟨_, rfl⟩ | ⟨h, _⟩ | ⟨h, _⟩
    · refine ⟨_, rfl, ?_⟩
      intro kv hkv
      simp only [List.mem_cons, List.not_mem_nil, or_false] at hkv
      subst hkv
      exact ⟨⟨"Env", rfl, by unfold PlainName; decide⟩, _, rfl⟩
    · exact absurd h (by decide)
    · exact absurd h (by decide)
  · intro s hs
    rw [exRefs, at_dict_one] at hs
    simp only [List.mem_cons, Prod.mk.injEq, Key.str.injEq, List.not_mem_nil, or_false] at hs
    rcases hs with ⟨h, _⟩ | ⟨_, rfl⟩ | ⟨h, _⟩
    · exact absurd h (by decide)
    · refine ⟨_, rfl, ?_⟩
      intro kv hkv
      simp only [List.mem_cons, List.not_mem_nil, or_false] at hkv
      rcases hkv with rfl | rfl
      · exact ⟨⟨"Bucket", rfl, by unfold PlainName; decide⟩, _, rfl, by simp⟩
      · exact ⟨⟨"Mod", rfl, by unfold PlainName; decide⟩, _, rfl, by simp⟩
    · exact absurd h (by decide)

/-- the references of a value, computed -/
theorem at_ref_iff {t v : Val} {q : Path} : At t (q ++ [.str "Ref"]) v ↔
    (q ++ [.str "Ref"], v) ∈ searchVal "Ref" t [] := by
  rw [mem_searchVal]
  simp [Found]

theorem exRefs_refs {r1 r2 r3 r4 : String} {q : Path} {v : Val}
    (h : At (exRefs r1 r2 r3 r4) (q ++ [.str "Ref"]) v) : ∃ s, v = .str s := by
  rw [at_ref_iff] at h
  simp [exRefs, searchVal, searchDict] at h
  rcases h with h | h | h | h <;> exact ⟨_, h.2⟩

example : refExist exRx (exRefs "Env" "Bucket" "ModThing" "Nope") (.dict []) = .ok
    [([.str "Outputs", .str "O4", .str "Value"], "Ref Nope not found as a resource or parameter")] := by decide

/-- the hypotheses of `C33_exact_partial` are met -/
example := C33_exact_partial exRx (exRefs "Env" "Bucket" "ModThing" "Nope") exRx_ok
  (exRefs_ok _ _ _ _) (fun _ _ h => exRefs_refs h)

theorem exRefs_names {r1 r2 r3 r4 sec n : String} {ty : Val} (ha : At (exRefs r1 r2 r3 r4) [.str sec, .str n, .str "Type"] ty) :
    n = "Env" ∨ n = "Bucket" ∨ n = "Mod" := by
  rw [at_cons] at ha
  obtain ⟨c, hc, ha⟩ := ha
  rw [at_cons] at ha
  obtain ⟨d, hd, ha⟩ := ha
  rw [exRefs, at_dict_one] at hc
  simp only [List.mem_cons, Prod.mk.injEq, Key.str.injEq, List.not_mem_nil, or_false] at hc
  rcases hc with ⟨_, rfl⟩ | ⟨_, rfl⟩ | ⟨_, rfl⟩
  · rw [at_dict_one] at hd; simp at hd; exact .inl hd.1
  · rw [at_dict_one] at hd; simp at hd; exact .inr (hd.imp (·.1) (·.1))
  · rw [at_dict_one] at hd
    simp only [List.mem_cons, Prod.mk.injEq, Key.str.injEq, List.not_mem_nil, or_false] at hd
    rcases hd with ⟨_, rfl⟩ | ⟨_, rfl⟩ | ⟨_, rfl⟩ | ⟨_, rfl⟩ <;>
      · rw [at_dict_one] at ha; simp at ha

/-- nothing is named `Environment` -/
theorem exRefs_unnamed (r1 r2 r3 r4 : String) : ¬ Referable (exRefs r1 r2 r3 r4) "Environment" := by
  rintro (hd | ⟨m, ⟨ty, hm, hmod⟩, hp⟩)
  · cases hd with
    | parameter ha => rcases exRefs_names ha with h | h | h <;> exact absurd h (by decide)
    | resource ha _ _ => rcases exRefs_names ha with h | h | h <;> exact absurd h (by decide)
    | pseudo hs => revert hs; decide
  · rcases exRefs_names hm with rfl | rfl | rfl
    · rw [at_cons] at hm
      obtain ⟨c, hc, hm⟩ := hm
      rw [exRefs, at_dict_one] at hc
      simp at hc
      subst hc
      rw [at_cons] at hm
      obtain ⟨d, hd, hm⟩ := hm
      rw [at_dict_one] at hd
      simp at hd
    · revert hp; decide
    · revert hp; decide

/-- **C33** fails: a reference to `Environment`, which does not exist, is accepted because there is a
parameter `Env`. -/
theorem C33_prefix_violated : ¬ C33_statement := by
  intro h
  obtain ⟨l, hl, hs⟩ := h exRx (exRefs "Environment" "a" "b" "c") exRx_ok (exRefs_ok _ _ _ _)
    (fun _ _ h => exRefs_refs h)
  have hat : At (exRefs "Environment" "a" "b" "c") ([.str "Outputs", .str "O1", .str "Value"] ++ [.str "Ref"])
      (.str "Environment") := by
    rw [at_ref_iff]
    simp [exRefs, searchVal, searchDict]
  have hl' : l = [RefFinding [.str "Outputs", .str "O2", .str "Value"] "a",
      RefFinding [.str "Outputs", .str "O3", .str "Value"] "b",
      RefFinding [.str "Outputs", .str "O4", .str "Value"] "c"] := by
    have : refExist exRx (exRefs "Environment" "a" "b" "c") (.dict []) =
      .ok [RefFinding [.str "Outputs", .str "O2", .str "Value"] "a",
        RefFinding [.str "Outputs", .str "O3", .str "Value"] "b",
        RefFinding [.str "Outputs", .str "O4", .str "Value"] "c"] := by decide
    rw [this] at hl
    injection hl with hl
    exact hl.symm
  have := (hs _ _ hat).2 (exRefs_unnamed _ _ _ _)
  rw [hl'] at this
  revert this
  decide

/-- **C33** fails for a reference that is a number: the check itself raises. -/
theorem C33_number_violated : refExist exRx (.dict [(.str "Outputs", .dict [(.str "O", .dict [(.str "Value",
    .dict [(.str "Ref", .int 1)])])])]) (.dict []) = .error (.typeError "expected string or bytes-like object") := by
  decide

end CfnLint
