import Verif.Lemmas.SubRule
/-
C71: rule E1019 reports exactly the faults of `Fn::Sub`.
-/
namespace CfnLint
open Spec

/-- The full C71 statement: rule E1019 ends normally and reports exactly the faults of the calls of `Fn::Sub`. -/
def C71_statement : Prop := ∀ (S : AttrSpecs) (t : Val), MapAttrs S → SubSections t → ClosedTypes t →
  ∃ res, subRule S t (.dict []) = .ok res ∧ ∀ p k, (p, k) ∈ res ↔ SubFault S t True p k

theorem splitOn_head {M : List Char} (hM : '.' ∉ M) (A : List Char) :
    (splitOn '.' A).head? = some M ↔ A = M ∨ ∃ y, A = M ++ '.' :: y := by
  by_cases hd : '.' ∈ A
  · obtain ⟨pre, suf, rfl, hp⟩ := List.eq_append_cons_of_mem hd
    rw [splitOn_append _ hp]
    simp only [List.head?_cons, Option.some.injEq]
    constructor
    · rintro rfl
      exact .inr ⟨suf, rfl⟩
    · rintro (rfl | ⟨y, e⟩)
      · exact absurd hd hM
      · have h1 := splitOn_append suf hp
        rw [e, splitOn_append _ hM] at h1
        exact (List.cons.inj h1).1.symm
  · rw [splitOn_plain hd]
    simp only [List.head?_cons, Option.some.injEq]
    constructor
    · exact .inl
    · rintro (rfl | ⟨y, rfl⟩)
      · rfl
      · simp at hd

/-- the check of one name -/
theorem subVariable_spec {S : AttrSpecs} {t : Val} (hS : MapAttrs S) (ht : SubSections t) (hc : ClosedTypes t)
    (m : List (Key × Val)) (x : String) :
    ∃ ks, subVariable S t (m.map Prod.fst) (.str x) = .ok ks ∧ ∀ k, k ∈ ks ↔ NameFault S t False m x k := by
  obtain ⟨tab, htab, hflat⟩ := validGetAtts_spec (S := S) ht.sections
  obtain ⟨names, hnames, hname⟩ := resourceNames_spec ht.sections
  obtain ⟨types, htypes, htype⟩ := subParameterTypes_spec ht.sections
  obtain ⟨htyp1, htyp2⟩ := htype x
  unfold subVariable
  rw [htab, hnames, htypes]
  simp only
  have hany : (pseudoParams.map Key.str ++ names ++ m.map Prod.fst).any (fun n => toKey (.str x) == some n) = true ↔
      x ∈ pseudoNames ∨ (∃ v, At t [.str "Resources", .str x] v) ∨ ∃ v, (Key.str x, v) ∈ m := by
    rw [List.any_eq_true, ← hname]
    simp only [toKey, beq_iff_eq, Option.some.injEq, List.mem_append]
    have hp : ∀ k : Key, k = .str x → (k ∈ pseudoParams.map Key.str ↔ x ∈ pseudoNames) := by
      rintro k rfl
      simp [pseudoParams, pseudoNames]
    constructor
    · rintro ⟨k, (h | h) | h, e⟩
      · exact .inl ((hp k e.symm).1 h)
      · exact .inr (.inl (e ▸ h))
      · obtain ⟨⟨k', v⟩, h1, rfl⟩ := List.mem_map.1 h
        exact .inr (.inr ⟨v, by rw [e]; exact h1⟩)
    · rintro (h | h | ⟨v, h⟩)
      · exact ⟨.str x, .inl (.inl ((hp _ rfl).2 h)), rfl⟩
      · exact ⟨.str x, .inl (.inr h), rfl⟩
      · exact ⟨.str x, .inr (List.mem_map.2 ⟨_, h, rfl⟩), rfl⟩
  by_cases hin : (pseudoParams.map Key.str ++ names ++ m.map Prod.fst).any (fun n => toKey (.str x) == some n) = true
  · rw [if_pos hin]
    refine ⟨[], rfl, fun k => ?_⟩
    simp only [List.not_mem_nil, false_iff]
    intro hf
    cases hf with
    | unknown h1 _ =>
      rcases hany.1 hin with h | ⟨v, h⟩ | ⟨v, h⟩
      · exact h1 (.pseudo h)
      · exact h1 (.resource h)
      · exact h1 (.own h)
    | list h1 =>
      rcases hany.1 hin with h | ⟨v, h⟩ | ⟨v, h⟩
      · exact h1.1 h
      · exact h1.2.1 v h
      · exact h1.2.2.1 v h
  · rw [if_neg hin]
    have hnin := fun h => hin (hany.2 h)
    have hdot : ∀ ra ∈ tab.flatMap (fun r => r.2.map (fun a => (r.1, a))), ∃ b ks, subAttr x ra.1 ra.2 = .ok (b, ks) ∧
        (b = true ↔ ∃ R A, x = R ++ "." ++ A ∧ '.' ∉ R.toList ∧ AttrHit R A ra.1 ra.2) ∧
        ∀ k, k ∈ ks ↔ k = .list ∧ ∃ R A, x = R ++ "." ++ A ∧ '.' ∉ R.toList ∧ ra.1 = .str R ∧ ra.2.1 ≠ "*" ∧ ra.2.1 = A ∧ ra.2.2.type = some "List" := by
      rintro ⟨r, a⟩ hra
      by_cases hd : '.' ∈ x.toList
      · obtain ⟨pre, suf, he, hp⟩ := List.eq_append_cons_of_mem hd
        have hx : x = String.ofList pre ++ "." ++ String.ofList suf := by
          apply String.toList_injective
          simp [he]
        have hp' : '.' ∉ (String.ofList pre).toList := by simpa using hp
        have huniq : ∀ R A : String, x = R ++ "." ++ A → '.' ∉ R.toList → R = String.ofList pre ∧ A = String.ofList suf := by
          intro R A e hR
          have e' := congrArg String.toList e
          rw [he] at e'
          simp only [String.toList_append] at e'
          have e'' : pre ++ '.' :: suf = R.toList ++ '.' :: A.toList := by simpa using e'
          have h1 := splitOn_append suf hp
          rw [e'', splitOn_append _ hR] at h1
          have h2 : R.toList = pre := (List.cons.inj h1).1
          rw [h2] at e''
          have h3 := List.append_cancel_left e''
          injection h3 with _ h3
          exact ⟨by rw [← h2]; simp, by rw [h3]; simp⟩
        obtain ⟨b, ks, h1, h2, h3⟩ := subAttr_dotted (A := String.ofList suf) hp' r a
        refine ⟨b, ks, by rw [hx]; exact h1, ?_, ?_⟩
        · rw [h2]
          constructor
          · intro h
            exact ⟨_, _, hx, hp', h⟩
          · rintro ⟨R, A, e, hR, h⟩
            obtain ⟨rfl, rfl⟩ := huniq R A e hR
            exact h
        · intro k
          rw [h3]
          constructor
          · rintro ⟨rfl, h⟩
            exact ⟨rfl, _, _, hx, hp', h⟩
          · rintro ⟨rfl, R, A, e, hR, h⟩
            obtain ⟨rfl, rfl⟩ := huniq R A e hR
            exact ⟨rfl, h⟩
      · have hr : r ≠ .str x := by
          rintro rfl
          obtain ⟨ty, attrs, ⟨top, res, props, rfl, h1, h2, _⟩, _⟩ := (hflat x a).1 hra
          exact hnin (.inr (.inl ⟨_, .key h1 (.key h2 .here)⟩))
        have hno : ∀ R A : String, x ≠ R ++ "." ++ A := by
          rintro R A rfl
          simp at hd
        refine ⟨false, [], subAttr_plain hd hr a, ?_, ?_⟩
        · simp only [Bool.false_eq_true, false_iff]
          rintro ⟨R, A, e, _⟩
          exact hno R A e
        · intro k
          simp only [List.not_mem_nil, false_iff]
          rintro ⟨_, R, A, e, _⟩
          exact hno R A e
    obtain ⟨b, ks, hloop, hb, hks⟩ := subAttrLoop_spec x _ (fun ra h => by
      obtain ⟨b, ks, h1, _⟩ := hdot ra h
      exact ⟨b, ks, h1⟩)
    have hfound : b = true ↔ ∃ R A ty, x = R ++ "." ++ A ∧ '.' ∉ R.toList ∧ HasResource t R ty ∧ Offers S ty A := by
      rw [hb]
      constructor
      · rintro ⟨⟨r, a⟩, hra, ks', h1⟩
        obtain ⟨b', ks'', h2, h3, _⟩ := hdot _ hra
        rw [h1] at h2
        injection h2 with h2
        injection h2 with h2 _
        obtain ⟨R, A, hx, hR, hr, hh⟩ := h3.1 h2.symm
        simp only at hr hh
        subst hr
        obtain ⟨ty, attrs, h4, h5, h6⟩ := (hflat R a).1 hra
        refine ⟨R, A, ty, hx, hR, h4, ?_⟩
        by_cases ho : OpenType ty
        · exact .inl ho
        · rw [typeAttrs_closed ho (hc.stack R ty h4) (hc.custom R ty h4)] at h5
          obtain ⟨o, h7, h8⟩ := Option.bind_eq_some_iff.1 h5
          have h8' : o = some attrs := h8
          subst h8'
          refine .inr ⟨attrs, h7, ?_⟩
          obtain ⟨n, d⟩ := a
          simp only at hh
          rcases hh with rfl | rfl | ⟨hm, hh⟩
          · exact absurd h6 (hS.noStar _ _ _ h7)
          · exact .inl ⟨d, h6⟩
          · rcases (splitOn_head (hS.maps _ _ _ _ h7 h6 hm) _).1 hh with e | ⟨y, e⟩
            · have : A = n := String.toList_injective e
              subst this
              exact .inl ⟨d, h6⟩
            · refine .inr ⟨n, String.ofList y, d, h6, hm, ?_⟩
              apply String.toList_injective
              simp [e]
      · rintro ⟨R, A, ty, hx, hR, h4, ho⟩
        have use : ∀ attrs n d, typeAttrs S ty = some attrs → (n, d) ∈ attrs → AttrHit R A (.str R) (n, d) →
            ∃ ra ∈ tab.flatMap (fun r => r.2.map (fun a => (r.1, a))), ∃ ks', subAttr x ra.1 ra.2 = .ok (true, ks') := by
          intro attrs n d h5 h6 h7
          have hra := (hflat R (n, d)).2 ⟨ty, attrs, h4, h5, h6⟩
          obtain ⟨b', ks'', h2, h3, _⟩ := hdot _ hra
          have : b' = true := h3.2 ⟨R, A, hx, hR, h7⟩
          subst this
          exact ⟨_, hra, _, h2⟩
        by_cases hop : OpenType ty
        · exact use _ _ _ (typeAttrs_open hop) List.mem_cons_self ⟨rfl, .inl rfl⟩
        · rcases ho with ho | ⟨attrs, h7, h8⟩
          · exact absurd ho hop
          · have h9 : typeAttrs S ty = some attrs := by
              rw [typeAttrs_closed hop (hc.stack R ty h4) (hc.custom R ty h4), h7]
              rfl
            rcases h8 with ⟨d, h8⟩ | ⟨M, y, d, h8, hm, rfl⟩
            · exact use _ _ _ h9 h8 ⟨rfl, .inr (.inl rfl)⟩
            · exact use _ _ _ h9 h8 ⟨rfl, .inr (.inr ⟨hm, (splitOn_head (hS.maps _ _ _ _ h7 h8 hm) _).2 (.inr ⟨y.toList, by simp⟩)⟩)⟩
    have hlist : ∀ k, k ∈ ks ↔ k = .list ∧ ∃ R A ty attrs d, x = R ++ "." ++ A ∧ '.' ∉ R.toList ∧ HasResource t R ty ∧ ¬ OpenType ty ∧
        dlookup ty S = some (some attrs) ∧ (A, d) ∈ attrs ∧ d.type = some "List" := by
      intro k
      rw [hks]
      constructor
      · rintro ⟨⟨r, n, d⟩, hra, b', ks', h1, hk⟩
        obtain ⟨b'', ks'', h2, _, h3⟩ := hdot _ hra
        rw [h1] at h2
        injection h2 with h2
        injection h2 with _ h2
        subst h2
        obtain ⟨rfl, R, A, hx, hR, hr, hns, rfl, hl⟩ := (h3 k).1 hk
        simp only at hr hns hl
        subst hr
        obtain ⟨ty, attrs, h4, h5, h6⟩ := (hflat R (n, d)).1 hra
        by_cases ho : OpenType ty
        · rw [typeAttrs_open ho] at h5
          injection h5 with h5
          subst h5
          simp only [List.mem_cons, List.not_mem_nil, or_false, Prod.mk.injEq] at h6
          exact absurd h6.1 hns
        · rw [typeAttrs_closed ho (hc.stack R ty h4) (hc.custom R ty h4)] at h5
          obtain ⟨o, h7, h8⟩ := Option.bind_eq_some_iff.1 h5
          have h8' : o = some attrs := h8
          subst h8'
          exact ⟨rfl, R, n, ty, attrs, d, hx, hR, h4, ho, h7, h6, hl⟩
      · rintro ⟨rfl, R, A, ty, attrs, d, hx, hR, h4, ho, h7, h8, hl⟩
        have h9 : typeAttrs S ty = some attrs := by
          rw [typeAttrs_closed ho (hc.stack R ty h4) (hc.custom R ty h4), h7]
          rfl
        have hra := (hflat R (A, d)).2 ⟨ty, attrs, h4, h9, h8⟩
        obtain ⟨b', ks', h2, _, h3⟩ := hdot _ hra
        refine ⟨_, hra, b', ks', h2, (h3 _).2 ⟨rfl, R, A, hx, hR, rfl, ?_, rfl, hl⟩⟩
        rintro h
        simp only at h
        subst h
        exact hS.noStar _ _ _ h7 h8
    rw [hloop]
    simp only [toKey, Option.bind_some]
    have hsl : SubList S t m x ↔ (ListParameter t x ∨ ∃ R A ty attrs d, x = R ++ "." ++ A ∧ '.' ∉ R.toList ∧ HasResource t R ty ∧ ¬ OpenType ty ∧
        dlookup ty S = some (some attrs) ∧ (A, d) ∈ attrs ∧ d.type = some "List") := by
      unfold SubList
      constructor
      · exact fun h => h.2.2.2
      · exact fun h => ⟨fun h' => hnin (.inl h'), fun v h' => hnin (.inr (.inl ⟨v, h'⟩)), fun v h' => hnin (.inr (.inr ⟨v, h'⟩)), h⟩
    cases hty : dlookup (Key.str x) types with
    | some ty =>
      refine ⟨_, rfl, fun k => ?_⟩
      have hp := htyp1.2 ⟨ty, hty⟩
      rw [List.mem_append, hlist]
      constructor
      · rintro (h | ⟨rfl, h⟩)
        · split at h
          · rename_i hl
            simp only [List.mem_cons, List.not_mem_nil, or_false] at h
            subst h
            exact .list (hsl.2 (.inl ((htyp2 ty hty).1 hl)))
          · cases h
        · exact .list (hsl.2 (.inr h))
      · intro hf
        cases hf with
        | unknown h _ =>
          obtain ⟨v, hv⟩ := hp
          exact absurd (.parameter hv) h
        | list h =>
          rcases hsl.1 h with h | h
          · left
            rw [if_pos ((htyp2 ty hty).2 h)]
            exact List.mem_cons_self
          · exact .inr ⟨rfl, h⟩
    | none =>
      have hnp : ∀ v, ¬ At t [.str "Parameters", .str x] v := by
        intro v hv
        obtain ⟨ty, h⟩ := htyp1.1 ⟨v, hv⟩
        rw [hty] at h
        cases h
      have hnl : ¬ ListParameter t x := by
        rintro ⟨ty, h, _⟩
        obtain ⟨u, h1, _⟩ := at_split (p := [.str "Parameters", .str x]) (q := [.str "Type"]) h
        exact hnp u h1
      refine ⟨_, rfl, fun k => ?_⟩
      rw [List.mem_append, hlist]
      constructor
      · rintro (⟨rfl, h⟩ | h)
        · exact .list (hsl.2 (.inr h))
        · split at h
          · cases h
          · rename_i hb'
            simp only [List.mem_cons, List.not_mem_nil, or_false] at h
            subst h
            refine .unknown ?_ (fun h => h.1)
            intro hk
            cases hk with
            | pseudo h => exact hnin (.inl h)
            | resource h => exact hnin (.inr (.inl ⟨_, h⟩))
            | own h => exact hnin (.inr (.inr ⟨_, h⟩))
            | parameter h => exact hnp _ h
            | attr h1 h2 h3 h4 => exact hb' (hfound.2 ⟨_, _, _, h1, h2, h3, h4⟩)
      · intro hf
        cases hf with
        | unknown h _ =>
          right
          have : ¬ b = true := by
            intro hb'
            obtain ⟨R, A, ty, h1, h2, h3, h4⟩ := hfound.1 hb'
            exact h (.attr h1 h2 h3 h4)
          rw [if_neg this]
          exact List.mem_cons_self
        | list h =>
          rcases hsl.1 h with h | h
          · exact absurd h hnl
          · exact .inl ⟨rfl, h⟩


theorem mem_subAtPath {p q : Path} {k : SubKind} {r : PyM (List SubKind)} {ks : List SubKind} (h : r = .ok ks) :
    ∃ l, subAtPath p r = .ok l ∧ ((q, k) ∈ l ↔ q = p ∧ k ∈ ks) := by
  subst h
  refine ⟨ks.map (fun k => (p, k)), rfl, ?_⟩
  simp only [List.mem_map, Prod.mk.injEq]
  constructor
  · rintro ⟨k', h, rfl, rfl⟩
    exact ⟨rfl, h⟩
  · rintro ⟨rfl, h⟩
    exact ⟨k, h, rfl, rfl⟩

theorem joinDots_ok : ∀ {xs : List Val} {s : String}, joinDots xs = .ok s → ∃ parts : List String, xs = parts.map Val.str ∧ s = dotted parts := by
  intro xs
  induction xs with
  | nil =>
    intro s h
    simp only [joinDots] at h
    injection h with h
    exact ⟨[], rfl, h.symm⟩
  | cons x rest ih =>
    intro s h
    cases x with
    | str a =>
      cases rest with
      | nil =>
        simp only [joinDots] at h
        injection h with h
        exact ⟨[a], rfl, h.symm⟩
      | cons b rest =>
        simp only [joinDots] at h
        split at h
        · cases h
        · rename_i r hr
          injection h with h
          obtain ⟨parts, h1, h2⟩ := ih hr
          refine ⟨a :: parts, by rw [h1]; rfl, ?_⟩
          cases parts with
          | nil => cases h1
          | cons c parts =>
            rw [← h, h2]
            rfl
    | _ => simp [joinDots] at h

theorem notKeyIn_iff {k : Key} {l : List String} : isKeyIn k l = false ↔ ∀ g ∈ l, k ≠ .str g := by
  rw [← Bool.not_eq_true, isKeyIn_iff]
  constructor
  · exact fun h g hg e => h ⟨g, hg, e⟩
  · rintro h ⟨g, hg, e⟩
    exact h g hg e

theorem subOne_length (S : AttrSpecs) (t : Val) (p : Path) {xs : List Val} (h : xs.length ≠ 2) :
    subOne S t (p, .list xs) = .ok [(p, .length)] := by
  unfold subOne
  simp only
  split
  all_goals first
    | rfl
    | (rename_i e; injection e with e; subst e; simp at h; done)
    | (rename_i e; cases e; done)
    | (rename_i e _; injection e with e; subst e; simp at h; done)
    | (rename_i e _; exact absurd rfl (e _))

/-- one variable of the object of variables -/
theorem subMapEntry_spec {S : AttrSpecs} {t : Val} (hS : MapAttrs S) (ht : SubSections t) (hc : ClosedTypes t) (p : Path)
    (x : Key) (v : Val) (href : ∀ w, v = .dict [(.str "Ref", w)] → ∃ n, w = .str n) :
    ∃ l, subMapEntry S t p (x, v) = .ok l ∧ ∀ q k, (q, k) ∈ l ↔
      (∃ f w, v = .dict [(f, w)] ∧ (∀ g ∈ variableFunctions, f ≠ .str g) ∧ q = p ++ [x] ∧ k = .function) ∨
      (∃ kvs, v = .dict kvs ∧ kvs.length ≠ 1 ∧ q = p ++ [x] ∧ k = .object) ∨
      (∃ xs, v = .list xs ∧ q = p ++ [x] ∧ k = .value) ∨
      (∃ n, v = .dict [(.str "Ref", .str n)] ∧ NameFault S t False [] n k ∧ q = p) ∨
      (∃ w n, v = .dict [(.str "Fn::GetAtt", w)] ∧ (w = .str n ∨ ∃ parts : List String, w = .list (parts.map Val.str) ∧ n = dotted parts) ∧
        NameFault S t False [] n k ∧ q = p) := by
  have hvar : ∀ n, ∃ l, subAtPath p (subVariable S t [] (.str n)) = .ok l ∧ ∀ q k, (q, k) ∈ l ↔ q = p ∧ NameFault S t False [] n k := by
    intro n
    obtain ⟨ks, h1, h2⟩ := subVariable_spec hS ht hc [] n
    simp only [List.map_nil] at h1
    refine ⟨ks.map (fun k => (p, k)), by rw [h1]; rfl, fun q k => ?_⟩
    obtain ⟨l, h3, h4⟩ := mem_subAtPath (p := p) (q := q) (k := k) h1
    rw [h1] at h3
    injection h3 with h3
    subst h3
    rw [← h2, ← h4]
  unfold subMapEntry
  simp only
  cases v with
  | dict kvs =>
    match kvs with
    | [(f, w)] =>
      simp only
      by_cases h1 : isKeyIn f subFunctions = false
      · rw [if_pos h1]
        have h1' := notKeyIn_iff.1 h1
        refine ⟨_, rfl, fun q k => ?_⟩
        simp only [List.mem_cons, List.not_mem_nil, or_false, Prod.mk.injEq]
        constructor
        · rintro ⟨rfl, rfl⟩
          exact .inl ⟨f, w, rfl, h1', rfl, rfl⟩
        · rintro (⟨_, _, _, _, h⟩ | ⟨kvs, e, h, _⟩ | ⟨_, e, _⟩ | ⟨n, e, _⟩ | ⟨w', n, e, _⟩)
          · exact h
          · injection e with e
            subst e
            simp at h
          · cases e
          · simp only [Val.dict.injEq, List.cons.injEq, Prod.mk.injEq] at e
            exact absurd e.1.1 (h1' _ (by decide))
          · simp only [Val.dict.injEq, List.cons.injEq, Prod.mk.injEq] at e
            exact absurd e.1.1 (h1' _ (by decide))
      · rw [if_neg h1]
        have hnf : ¬ ∀ g ∈ variableFunctions, f ≠ .str g := fun h => h1 (notKeyIn_iff.2 h)
        have hrest : ∀ q k, ¬ ((∃ f' w', Val.dict [(f, w)] = .dict [(f', w')] ∧ (∀ g ∈ variableFunctions, f' ≠ .str g) ∧ q = p ++ [x] ∧ k = SubKind.function) ∨
            (∃ kvs, Val.dict [(f, w)] = .dict kvs ∧ kvs.length ≠ 1 ∧ q = p ++ [x] ∧ k = .object) ∨
            (∃ xs, Val.dict [(f, w)] = .list xs ∧ q = p ++ [x] ∧ k = .value)) := by
          rintro q k (⟨f', w', e, h, _⟩ | ⟨kvs, e, h, _⟩ | ⟨_, e, _⟩)
          · simp only [Val.dict.injEq, List.cons.injEq, Prod.mk.injEq] at e
            exact hnf (e.1.1 ▸ h)
          · injection e with e
            subst e
            simp at h
          · cases e
        have hmain : ∀ {P : Path → SubKind → Prop} {l : List (Path × SubKind)},
            (∀ q k, (q, k) ∈ l ↔ P q k) → (∀ q k, P q k ↔ (∃ n, Val.dict [(f, w)] = .dict [(.str "Ref", .str n)] ∧ NameFault S t False [] n k ∧ q = p) ∨
              (∃ w' n, Val.dict [(f, w)] = .dict [(.str "Fn::GetAtt", w')] ∧ (w' = .str n ∨ ∃ parts : List String, w' = .list (parts.map Val.str) ∧ n = dotted parts) ∧
                NameFault S t False [] n k ∧ q = p)) → ∀ q k, (q, k) ∈ l ↔
            (∃ f' w', Val.dict [(f, w)] = .dict [(f', w')] ∧ (∀ g ∈ variableFunctions, f' ≠ .str g) ∧ q = p ++ [x] ∧ k = .function) ∨
            (∃ kvs, Val.dict [(f, w)] = .dict kvs ∧ kvs.length ≠ 1 ∧ q = p ++ [x] ∧ k = .object) ∨
            (∃ xs, Val.dict [(f, w)] = .list xs ∧ q = p ++ [x] ∧ k = .value) ∨
            (∃ n, Val.dict [(f, w)] = .dict [(.str "Ref", .str n)] ∧ NameFault S t False [] n k ∧ q = p) ∨
            (∃ w' n, Val.dict [(f, w)] = .dict [(.str "Fn::GetAtt", w')] ∧ (w' = .str n ∨ ∃ parts : List String, w' = .list (parts.map Val.str) ∧ n = dotted parts) ∧
              NameFault S t False [] n k ∧ q = p) := by
          intro P l h2 h3 q k
          rw [h2, h3]
          constructor
          · exact fun h => .inr (.inr (.inr h))
          · rintro (h | h | h | h)
            · exact absurd (.inl h) (hrest q k)
            · exact absurd (.inr (.inl h)) (hrest q k)
            · exact absurd (.inr (.inr h)) (hrest q k)
            · exact h
        by_cases h2 : f = .str "Ref"
        · rw [if_pos h2]
          subst h2
          obtain ⟨n, rfl⟩ := href w rfl
          obtain ⟨l, h3, h4⟩ := hvar n
          refine ⟨l, h3, hmain h4 fun q k => ?_⟩
          constructor
          · rintro ⟨rfl, h⟩
            exact .inl ⟨n, rfl, h, rfl⟩
          · rintro (⟨n', e, h, rfl⟩ | ⟨_, _, e, _⟩)
            · simp only [Val.dict.injEq, List.cons.injEq, Prod.mk.injEq, Val.str.injEq] at e
              exact ⟨rfl, e.1.2 ▸ h⟩
            · simp at e
        · rw [if_neg h2]
          have hnr : ∀ q k, ¬ ∃ n, Val.dict [(f, w)] = .dict [(.str "Ref", .str n)] ∧ NameFault S t False [] n k ∧ q = p := by
            rintro q k ⟨n, e, _⟩
            simp only [Val.dict.injEq, List.cons.injEq, Prod.mk.injEq] at e
            exact h2 e.1.1
          by_cases h3 : f = .str "Fn::GetAtt"
          · rw [if_pos h3]
            subst h3
            have hga : ∀ n, (w = .str n ∨ ∃ parts : List String, w = .list (parts.map Val.str) ∧ n = dotted parts) →
                (∀ n', (w = .str n' ∨ ∃ parts : List String, w = .list (parts.map Val.str) ∧ n' = dotted parts) → n' = n) →
                ∀ q k, (q = p ∧ NameFault S t False [] n k) ↔ (∃ n, Val.dict [(.str "Fn::GetAtt", w)] = .dict [(.str "Ref", .str n)] ∧ NameFault S t False [] n k ∧ q = p) ∨
              (∃ w' n, Val.dict [(.str "Fn::GetAtt", w)] = .dict [(.str "Fn::GetAtt", w')] ∧ (w' = .str n ∨ ∃ parts : List String, w' = .list (parts.map Val.str) ∧ n = dotted parts) ∧
                NameFault S t False [] n k ∧ q = p) := by
              intro n hn hu q k
              constructor
              · rintro ⟨rfl, h⟩
                exact .inr ⟨w, n, rfl, hn, h, rfl⟩
              · rintro (h | ⟨w', n', e, h, h', rfl⟩)
                · exact absurd h (hnr q k)
                · simp only [Val.dict.injEq, List.cons.injEq, Prod.mk.injEq] at e
                  rw [← e.1.2] at h
                  exact ⟨rfl, hu n' h ▸ h'⟩
            have hno : (∀ n, ¬ (w = .str n ∨ ∃ parts : List String, w = .list (parts.map Val.str) ∧ n = dotted parts)) →
                ∀ q k, False ↔ (∃ n, Val.dict [(.str "Fn::GetAtt", w)] = .dict [(.str "Ref", .str n)] ∧ NameFault S t False [] n k ∧ q = p) ∨
              (∃ w' n, Val.dict [(.str "Fn::GetAtt", w)] = .dict [(.str "Fn::GetAtt", w')] ∧ (w' = .str n ∨ ∃ parts : List String, w' = .list (parts.map Val.str) ∧ n = dotted parts) ∧
                NameFault S t False [] n k ∧ q = p) := by
              intro hn q k
              rw [false_iff]
              rintro (h | ⟨w', n', e, h, h', rfl⟩)
              · exact absurd h (hnr q k)
              · simp only [Val.dict.injEq, List.cons.injEq, Prod.mk.injEq] at e
                rw [← e.1.2] at h
                exact hn n' h
            cases w with
            | str n =>
              obtain ⟨l, h4, h5⟩ := hvar n
              refine ⟨l, h4, hmain h5 (hga n (.inl rfl) ?_)⟩
              rintro n' (e | ⟨_, e, _⟩)
              · injection e with e
                exact e.symm
              · cases e
            | list xs =>
              simp only
              cases hj : joinDots xs with
              | error e =>
                refine ⟨[], rfl, hmain (P := fun _ _ => False) (by simp) (hno ?_)⟩
                rintro n (e | ⟨parts, e, _⟩)
                · cases e
                · injection e with e
                  rw [e, joinDots_dotted] at hj
                  cases hj
              | ok n =>
                obtain ⟨l, h4, h5⟩ := hvar n
                refine ⟨l, h4, hmain h5 (hga n ?_ ?_)⟩
                · obtain ⟨parts, rfl, h6⟩ := joinDots_ok hj
                  exact .inr ⟨parts, rfl, h6⟩
                · rintro n' (e | ⟨parts, e, rfl⟩)
                  · cases e
                  · injection e with e
                    rw [e, joinDots_dotted] at hj
                    injection hj
            | _ =>
              refine ⟨[], rfl, hmain (P := fun _ _ => False) (by simp) (hno ?_)⟩
              rintro n (e | ⟨parts, e, _⟩) <;> cases e
          · rw [if_neg h3]
            refine ⟨[], rfl, hmain (P := fun _ _ => False) (by simp) ?_⟩
            intro q k
            rw [false_iff]
            rintro (h | ⟨w', n', e, _⟩)
            · exact hnr q k h
            · simp only [Val.dict.injEq, List.cons.injEq, Prod.mk.injEq] at e
              exact h3 e.1.1
    | [] =>
      refine ⟨_, rfl, fun q k => ?_⟩
      simp only [List.mem_cons, List.not_mem_nil, or_false, Prod.mk.injEq]
      constructor
      · rintro ⟨rfl, rfl⟩
        exact .inr (.inl ⟨_, rfl, by simp, rfl, rfl⟩)
      · rintro (⟨_, _, e, _⟩ | ⟨kvs, e, _, h⟩ | ⟨_, e, _⟩ | ⟨n, e, _⟩ | ⟨w', n, e, _⟩)
        · simp at e
        · exact h
        · cases e
        · simp at e
        · simp at e
    | a :: b :: c =>
      refine ⟨_, rfl, fun q k => ?_⟩
      simp only [List.mem_cons, List.not_mem_nil, or_false, Prod.mk.injEq]
      constructor
      · rintro ⟨rfl, rfl⟩
        exact .inr (.inl ⟨_, rfl, by simp, rfl, rfl⟩)
      · rintro (⟨_, _, e, _⟩ | ⟨kvs, e, _, h⟩ | ⟨_, e, _⟩ | ⟨n, e, _⟩ | ⟨w', n, e, _⟩)
        · simp at e
        · exact h
        · cases e
        · simp at e
        · simp at e
  | list xs =>
    refine ⟨_, rfl, fun q k => ?_⟩
    simp only [List.mem_cons, List.not_mem_nil, or_false, Prod.mk.injEq]
    constructor
    · rintro ⟨rfl, rfl⟩
      exact .inr (.inr (.inl ⟨_, rfl, rfl, rfl⟩))
    · rintro (⟨_, _, e, _⟩ | ⟨kvs, e, _, h⟩ | ⟨_, e, h⟩ | ⟨n, e, _⟩ | ⟨w', n, e, _⟩)
      · cases e
      · cases e
      · exact h
      · cases e
      · cases e
  | _ =>
    refine ⟨[], rfl, fun q k => ?_⟩
    simp only [List.not_mem_nil, false_iff]
    rintro (⟨_, _, e, _⟩ | ⟨kvs, e, _, h⟩ | ⟨_, e, h⟩ | ⟨n, e, _⟩ | ⟨w', n, e, _⟩) <;> cases e

theorem mem_findSub {t : Val} (hw : t.WF) {p : Path} {v : Val} :
    (p, v) ∈ searchDeepKeys "Fn::Sub" t (.dict []) ↔ ∃ q, p = q ++ [.str "Fn::Sub"] ∧ At t (q ++ [.str "Fn::Sub"]) v := by
  rw [(C27_search_partial "Fn::Sub" t hw).1 p v]
  constructor
  · rintro ⟨h, q, rfl⟩
    exact ⟨q, rfl, h⟩
  · rintro ⟨q, rfl, h⟩
    exact ⟨h, q, rfl⟩

theorem subString_spec {S : AttrSpecs} {t : Val} (hS : MapAttrs S) (ht : SubSections t) (hc : ClosedTypes t) {s : String}
    {ns : List (List Char)} (hs : SubText s.toList ns) (m : List (Key × Val)) (p : Path) :
    ∃ l, subString S t s (m.map Prod.fst) p = .ok l ∧ ∀ q k, (q, k) ∈ l ↔ q = p ∧ ∃ x, SubVar s x ∧ NameFault S t False m x k := by
  obtain ⟨l, hl⟩ : ∃ l, subString S t s (m.map Prod.fst) p = .ok l := by
    refine collectM_ok fun x _ => ?_
    obtain ⟨ks, h1, _⟩ := subVariable_spec hS ht hc m x
    rw [h1]
    exact ⟨_, rfl⟩
  refine ⟨l, hl, fun q k => ?_⟩
  unfold subString at hl
  rw [mem_collectM hl]
  constructor
  · rintro ⟨x, hx, l', h1, h2⟩
    obtain ⟨ks, h3, h4⟩ := subVariable_spec hS ht hc m x
    obtain ⟨l'', h5, h6⟩ := mem_subAtPath (p := p) (q := q) (k := k) h3
    rw [h1] at h5
    injection h5 with h5
    subst h5
    obtain ⟨rfl, h7⟩ := h6.1 h2
    exact ⟨rfl, x, (subVar_found hs).1 hx, (h4 k).1 h7⟩
  · rintro ⟨rfl, x, hx, hf⟩
    obtain ⟨ks, h3, h4⟩ := subVariable_spec hS ht hc m x
    obtain ⟨l'', h5, h6⟩ := mem_subAtPath (p := q) (q := q) (k := k) h3
    exact ⟨x, (subVar_found hs).2 hx, l'', h5, h6.2 ⟨rfl, (h4 k).2 hf⟩⟩

/-- **C71** Rule E1019 ends normally and reports exactly the faults of the calls of `Fn::Sub`, names inside modules among them, if
the object of variables only stands beside a text and the references in it are texts. -/
theorem C71_exact_partial {S : AttrSpecs} {t : Val} (hS : MapAttrs S) (ht : SubSections t) (hc : ClosedTypes t) (hcalls : SubCalls t) :
    ∃ res, subRule S t (.dict []) = .ok res ∧ ∀ p k, (p, k) ∈ res ↔ SubFault S t False p k := by
  have hw := ht.wf
  have hpair : ∀ q s m, At t (q ++ [.str "Fn::Sub"]) (.list [.str s, .dict m]) →
      ∃ l, subOne S t (q ++ [.str "Fn::Sub"], .list [.str s, .dict m]) = .ok l ∧ ∀ p k, (p, k) ∈ l ↔
        (p = q ++ [.str "Fn::Sub"] ++ [.int 0] ∧ ∃ x, SubVar s x ∧ NameFault S t False m x k) ∨
        ∃ xv ∈ m, ∃ l', subMapEntry S t (q ++ [.str "Fn::Sub"]) xv = .ok l' ∧ (p, k) ∈ l' := by
    intro q s m hat
    obtain ⟨ns, hs⟩ := ht.pairs q s _ hat
    obtain ⟨l, h1, h2⟩ := subString_spec hS ht hc hs m (q ++ [.str "Fn::Sub"] ++ [.int 0])
    obtain ⟨l', h3⟩ : ∃ l', collectM (subMapEntry S t (q ++ [.str "Fn::Sub"])) m = .ok l' := by
      refine collectM_ok ?_
      rintro ⟨x, v⟩ hxv
      obtain ⟨l', h, _⟩ := subMapEntry_spec hS ht hc (q ++ [.str "Fn::Sub"]) x v (fun w e => hcalls.refs q _ m x w hat (e ▸ hxv))
      exact ⟨l', h⟩
    refine ⟨l ++ l', ?_, fun p k => ?_⟩
    · unfold subOne
      simp only
      rw [h1, h3]
    · rw [List.mem_append, h2, mem_collectM h3]
  have hentry : ∀ q s m x v, At t (q ++ [.str "Fn::Sub"]) (.list [.str s, .dict m]) → (x, v) ∈ m →
      ∀ w, v = .dict [(.str "Ref", w)] → ∃ n, w = .str n := by
    intro q s m x v hat hxv w e
    exact hcalls.refs q _ m x w hat (e ▸ hxv)
  obtain ⟨res, hres⟩ : ∃ res, collectM (subOne S t) (searchDeepKeys "Fn::Sub" t (.dict [])) = .ok res := by
    apply collectM_ok
    rintro ⟨p, v⟩ hf
    obtain ⟨q, rfl, hat⟩ := (mem_findSub hw).1 hf
    cases v with
    | str s =>
      obtain ⟨ns, hs⟩ := ht.texts q s hat
      obtain ⟨l, h1, _⟩ := subString_spec hS ht hc hs [] (q ++ [.str "Fn::Sub"])
      exact ⟨l, h1⟩
    | list xs =>
      match xs with
      | [] => exact ⟨_, subOne_length _ _ _ (by simp)⟩
      | [_] => exact ⟨_, subOne_length _ _ _ (by simp)⟩
      | [a, b] =>
        by_cases hb : ∃ m, b = .dict m
        · obtain ⟨m, rfl⟩ := hb
          obtain ⟨s, rfl⟩ := hcalls.first q a m hat
          obtain ⟨l, h, _⟩ := hpair q s m hat
          exact ⟨l, h⟩
        · by_cases ha : ∃ s, a = .str s
          · obtain ⟨s, rfl⟩ := ha
            refine ⟨[(q ++ [.str "Fn::Sub"] ++ [.int 1], .second)], ?_⟩
            cases b with
            | dict m => exact absurd ⟨m, rfl⟩ hb
            | _ => rfl
          · refine ⟨[(q ++ [.str "Fn::Sub"] ++ [.int 0], .first), (q ++ [.str "Fn::Sub"] ++ [.int 1], .second)], ?_⟩
            cases b with
            | dict m => exact absurd ⟨m, rfl⟩ hb
            | _ =>
              cases a with
              | str s => exact absurd ⟨s, rfl⟩ ha
              | _ => rfl
      | _ :: _ :: _ :: _ => exact ⟨_, subOne_length _ _ _ (by simp)⟩
    | dict kvs =>
      match kvs with
      | [] => exact ⟨_, rfl⟩
      | [(k, _)] => exact ⟨_, rfl⟩
      | _ :: _ :: _ => exact ⟨_, rfl⟩
    | _ => exact ⟨_, rfl⟩
  refine ⟨res, hres, fun p k => ?_⟩
  rw [mem_collectM hres]
  constructor
  · rintro ⟨⟨p', v⟩, hf, l, h1, h2⟩
    obtain ⟨q, rfl, hat⟩ := (mem_findSub hw).1 hf
    have hshape : (∀ s, v ≠ .str s) → (∀ xs, v ≠ .list xs) → (∀ w, v ≠ .dict [(.str "Fn::Transform", w)]) →
        l = [(q ++ [.str "Fn::Sub"], SubKind.shape)] → SubFault S t False p k := by
      intro h3 h4 h5 h6
      subst h6
      simp only [List.mem_cons, List.not_mem_nil, or_false, Prod.mk.injEq] at h2
      obtain ⟨rfl, rfl⟩ := h2
      exact .shape hat h3 h4 h5
    have hlen : ∀ xs, v = .list xs → xs.length ≠ 2 → l = [(q ++ [.str "Fn::Sub"], SubKind.length)] → SubFault S t False p k := by
      intro xs h3 h4 h6
      subst h6
      subst h3
      simp only [List.mem_cons, List.not_mem_nil, or_false, Prod.mk.injEq] at h2
      obtain ⟨rfl, rfl⟩ := h2
      exact .length hat h4
    cases v with
    | str s =>
      obtain ⟨ns, hs⟩ := ht.texts q s hat
      obtain ⟨l', h3, h4⟩ := subString_spec hS ht hc hs [] (q ++ [.str "Fn::Sub"])
      have h1' : subString S t s (List.map Prod.fst ([] : List (Key × Val))) (q ++ [.str "Fn::Sub"]) = .ok l := h1
      rw [h1'] at h3
      injection h3 with h3
      subst h3
      obtain ⟨rfl, x, hx, hf⟩ := (h4 p k).1 h2
      exact .text hat hx hf
    | list xs =>
      match xs with
      | [] => exact hlen _ rfl (by simp) (by rw [subOne_length _ _ _ (by simp)] at h1; injection h1 with h1; exact h1.symm)
      | [_] => exact hlen _ rfl (by simp) (by rw [subOne_length _ _ _ (by simp)] at h1; injection h1 with h1; exact h1.symm)
      | [a, b] =>
        by_cases hb : ∃ m, b = .dict m
        · obtain ⟨m, rfl⟩ := hb
          obtain ⟨s, rfl⟩ := hcalls.first q a m hat
          obtain ⟨l', h3, h4⟩ := hpair q s m hat
          rw [h1] at h3
          injection h3 with h3
          subst h3
          rcases (h4 p k).1 h2 with ⟨rfl, x, hx, hf⟩ | ⟨⟨x, v⟩, hxv, l', h5, h6⟩
          · have := SubFault.pair hat hx hf
            simpa using this
          · obtain ⟨l'', h7, h8⟩ := subMapEntry_spec hS ht hc (q ++ [.str "Fn::Sub"]) x v (hentry q s m x v hat hxv)
            rw [h5] at h7
            injection h7 with h7
            subst h7
            rcases (h8 p k).1 h6 with ⟨f, w, rfl, hf, rfl, rfl⟩ | ⟨kvs, rfl, hl, rfl, rfl⟩ | ⟨xs, rfl, rfl, rfl⟩ | ⟨n, rfl, hf, rfl⟩ | ⟨w, n, rfl, hn, hf, rfl⟩
            · have := SubFault.function (S := S) (mods := False) hat hxv hf
              simpa using this
            · have := SubFault.object (S := S) (mods := False) hat hxv hl
              simpa using this
            · have := SubFault.value (S := S) (mods := False) hat hxv
              simpa using this
            · exact .ref hat hxv hf
            · exact .getAtt hat hxv hn hf
        · have hb' : ∀ m, b ≠ .dict m := fun m e => hb ⟨m, e⟩
          have hsec := SubFault.second (S := S) (mods := False) hat hb'
          by_cases ha : ∃ s, a = .str s
          · obtain ⟨s, rfl⟩ := ha
            have h3 : l = [(q ++ [.str "Fn::Sub"] ++ [.int 1], .second)] := by
              cases b with
              | dict m => exact absurd ⟨m, rfl⟩ hb
              | _ => injection h1 with h1; exact h1.symm
            subst h3
            simp only [List.mem_cons, List.not_mem_nil, or_false, Prod.mk.injEq] at h2
            obtain ⟨rfl, rfl⟩ := h2
            simpa using hsec
          · have h3 : l = [(q ++ [.str "Fn::Sub"] ++ [.int 0], .first), (q ++ [.str "Fn::Sub"] ++ [.int 1], .second)] := by
              cases b with
              | dict m => exact absurd ⟨m, rfl⟩ hb
              | _ =>
                cases a with
                | str s => exact absurd ⟨s, rfl⟩ ha
                | _ => injection h1 with h1; exact h1.symm
            subst h3
            have hfst := SubFault.first (S := S) (mods := False) hat (fun s e => ha ⟨s, e⟩)
            simp only [List.mem_cons, List.not_mem_nil, or_false, Prod.mk.injEq] at h2
            rcases h2 with ⟨rfl, rfl⟩ | ⟨rfl, rfl⟩
            · simpa using hfst
            · simpa using hsec
      | _ :: _ :: _ :: _ => exact hlen _ rfl (by simp) (by rw [subOne_length _ _ _ (by simp)] at h1; injection h1 with h1; exact h1.symm)
    | dict kvs =>
      match kvs with
      | [] => exact hshape (by simp) (by simp) (by simp) (by injection h1 with h1; exact h1.symm)
      | [(f, w)] =>
        have h1' : Except.ok (if f = .str "Fn::Transform" then [] else [(q ++ [.str "Fn::Sub"], SubKind.shape)]) = (Except.ok l : PyM _) := h1
        injection h1' with h1'
        by_cases hf : f = .str "Fn::Transform"
        · rw [if_pos hf] at h1'
          subst h1'
          cases h2
        · rw [if_neg hf] at h1'
          exact hshape (by simp) (by simp) (by simp [hf]) h1'.symm
      | _ :: _ :: _ => exact hshape (by simp) (by simp) (by simp) (by injection h1 with h1; exact h1.symm)
    | _ => exact hshape (by simp) (by simp) (by simp) (by injection h1 with h1; exact h1.symm)
  · intro hf
    have use : ∀ {q : Path} {v : Val}, At t (q ++ [.str "Fn::Sub"]) v → (∀ l, subOne S t (q ++ [.str "Fn::Sub"], v) = .ok l → (p, k) ∈ l) →
        ∃ a ∈ searchDeepKeys "Fn::Sub" t (.dict []), ∃ l, subOne S t a = .ok l ∧ (p, k) ∈ l := by
      intro q v hat h
      have hm := (mem_findSub hw).2 ⟨q, rfl, hat⟩
      obtain ⟨l, hl⟩ := collectM_each hres _ hm
      exact ⟨_, hm, l, hl, h l hl⟩
    have usePair : ∀ {q : Path} {s : String} {m : List (Key × Val)}, At t (q ++ [.str "Fn::Sub"]) (.list [.str s, .dict m]) →
        ((p = q ++ [.str "Fn::Sub"] ++ [.int 0] ∧ ∃ x, SubVar s x ∧ NameFault S t False m x k) ∨
        ∃ xv ∈ m, ∃ l', subMapEntry S t (q ++ [.str "Fn::Sub"]) xv = .ok l' ∧ (p, k) ∈ l') →
        ∃ a ∈ searchDeepKeys "Fn::Sub" t (.dict []), ∃ l, subOne S t a = .ok l ∧ (p, k) ∈ l := by
      intro q s m hat h
      refine use hat fun l hl => ?_
      obtain ⟨l', h3, h4⟩ := hpair q s m hat
      rw [hl] at h3
      injection h3 with h3
      subst h3
      exact (h4 p k).2 h
    cases hf with
    | text hat hx hf =>
      refine use hat fun l hl => ?_
      obtain ⟨ns, hs⟩ := ht.texts _ _ hat
      obtain ⟨l', h3, h4⟩ := subString_spec hS ht hc hs [] _
      have h1' : subString S t _ (List.map Prod.fst ([] : List (Key × Val))) _ = .ok l := hl
      rw [h1'] at h3
      injection h3 with h3
      subst h3
      exact (h4 _ _).2 ⟨rfl, _, hx, hf⟩
    | pair hat hx hf => exact usePair hat (.inl ⟨by simp, _, hx, hf⟩)
    | @first q a b hat ha =>
      refine use hat fun l hl => ?_
      by_cases hb : ∃ m, b = .dict m
      · obtain ⟨m, rfl⟩ := hb
        obtain ⟨s, rfl⟩ := hcalls.first _ a m hat
        exact absurd rfl (ha s)
      · have h3 : l = [(q ++ [.str "Fn::Sub"] ++ [.int 0], .first), (q ++ [.str "Fn::Sub"] ++ [.int 1], .second)] := by
          cases b with
          | dict m => exact absurd ⟨m, rfl⟩ hb
          | _ =>
            cases a with
            | str s => exact absurd rfl (ha s)
            | _ => injection hl with h1; exact h1.symm
        subst h3
        simp
    | @second q a b hat hb =>
      refine use hat fun l hl => ?_
      by_cases ha : ∃ s, a = .str s
      · obtain ⟨s, rfl⟩ := ha
        have h3 : l = [(q ++ [.str "Fn::Sub"] ++ [.int 1], .second)] := by
          cases b with
          | dict m => exact absurd rfl (hb m)
          | _ => injection hl with h1; exact h1.symm
        subst h3
        simp
      · have h3 : l = [(q ++ [.str "Fn::Sub"] ++ [.int 0], .first), (q ++ [.str "Fn::Sub"] ++ [.int 1], .second)] := by
          cases b with
          | dict m => exact absurd rfl (hb m)
          | _ =>
            cases a with
            | str s => exact absurd ⟨s, rfl⟩ ha
            | _ => injection hl with h1; exact h1.symm
        subst h3
        simp
    | @length q xs hat hx =>
      refine use hat fun l hl => ?_
      have h3 : l = [(q ++ [.str "Fn::Sub"], .length)] := by
        rw [subOne_length _ _ _ hx] at hl
        injection hl with h1
        exact h1.symm
      subst h3
      simp
    | @shape q v hat h1 h2 h3 =>
      refine use hat fun l hl => ?_
      have h4 : l = [(q ++ [.str "Fn::Sub"], .shape)] := by
        cases v with
        | str s => exact absurd rfl (h1 s)
        | list xs => exact absurd rfl (h2 xs)
        | dict kvs =>
          match kvs with
          | [] => injection hl with h1; exact h1.symm
          | [(f, w)] =>
            have h1' : Except.ok (if f = .str "Fn::Transform" then [] else [(q ++ [.str "Fn::Sub"], SubKind.shape)]) = (Except.ok l : PyM _) := hl
            injection h1' with h1'
            by_cases hf : f = .str "Fn::Transform"
            · subst hf
              exact absurd rfl (h3 w)
            · rw [if_neg hf] at h1'
              exact h1'.symm
          | _ :: _ :: _ => injection hl with h1; exact h1.symm
        | _ => injection hl with h1; exact h1.symm
      subst h4
      simp
    | @function q s m x f w hat hxv hf =>
      obtain ⟨l, h1, h2⟩ := subMapEntry_spec hS ht hc (q ++ [.str "Fn::Sub"]) x _ (hentry _ _ _ _ _ hat hxv)
      exact usePair hat (.inr ⟨_, hxv, l, h1, (h2 _ _).2 (.inl ⟨_, _, rfl, hf, by simp, rfl⟩)⟩)
    | @object q s m x kvs hat hxv hf =>
      obtain ⟨l, h1, h2⟩ := subMapEntry_spec hS ht hc (q ++ [.str "Fn::Sub"]) x _ (hentry _ _ _ _ _ hat hxv)
      exact usePair hat (.inr ⟨_, hxv, l, h1, (h2 _ _).2 (.inr (.inl ⟨_, rfl, hf, by simp, rfl⟩))⟩)
    | @value q s m x xs hat hxv =>
      obtain ⟨l, h1, h2⟩ := subMapEntry_spec hS ht hc (q ++ [.str "Fn::Sub"]) x _ (hentry _ _ _ _ _ hat hxv)
      exact usePair hat (.inr ⟨_, hxv, l, h1, (h2 _ _).2 (.inr (.inr (.inl ⟨_, rfl, by simp, rfl⟩)))⟩)
    | @ref q s m x n k hat hxv hf =>
      obtain ⟨l, h1, h2⟩ := subMapEntry_spec hS ht hc (q ++ [.str "Fn::Sub"]) x _ (hentry _ _ _ _ _ hat hxv)
      exact usePair hat (.inr ⟨_, hxv, l, h1, (h2 _ _).2 (.inr (.inr (.inr (.inl ⟨_, rfl, hf, rfl⟩))))⟩)
    | @getAtt q s m x w n k hat hxv hn hf =>
      obtain ⟨l, h1, h2⟩ := subMapEntry_spec hS ht hc (q ++ [.str "Fn::Sub"]) x _ (hentry _ _ _ _ _ hat hxv)
      exact usePair hat (.inr ⟨_, hxv, l, h1, (h2 _ _).2 (.inr (.inr (.inr (.inr ⟨_, _, rfl, hn, hf, rfl⟩))))⟩)

/-! ### Witnesses -/

/-- a template with one resource, one parameter that is a list, and one call of `Fn::Sub` -/
def exSub (ty : String) (arg : Val) : Val := .dict [
  (.str "Resources", .dict [(.str "M", .dict [(.str "Type", .str ty)])]),
  (.str "Parameters", .dict [(.str "P", .dict [(.str "Type", .str "CommaDelimitedList")])]),
  (.str "Outputs", .dict [(.str "O", .dict [(.str "Value", .dict [(.str "Fn::Sub", arg)])])])]

/-- the place of the call -/
def exSubPath : Path := [.str "Outputs", .str "O", .str "Value"]

theorem exSub_wf {ty : String} {arg : Val} (h : arg.WF) : (exSub ty arg).WF := by
  simp [exSub, Val.WF, Val.WFDict, h]

theorem exSub_at {ty : String} {arg : Val} : At (exSub ty arg) (exSubPath ++ [.str "Fn::Sub"]) arg :=
  .key (List.mem_cons_of_mem _ (List.mem_cons_of_mem _ List.mem_cons_self))
    (.key List.mem_cons_self (.key List.mem_cons_self (.key List.mem_cons_self .here)))

theorem exSub_only {ty : String} {arg : Val} (hw : arg.WF) (hs : searchDeepKeys "Fn::Sub" (exSub ty arg) (.dict []) = [(exSubPath ++ [.str "Fn::Sub"], arg)])
    {q : Path} {v : Val} (h : At (exSub ty arg) (q ++ [.str "Fn::Sub"]) v) : v = arg := by
  have := (mem_findSub (exSub_wf hw)).2 ⟨q, rfl, h⟩
  rw [hs] at this
  simp only [List.mem_cons, List.not_mem_nil, or_false, Prod.mk.injEq] at this
  exact this.2

theorem exSub_has {ty R ty' : String} {arg : Val} : HasResource (exSub ty arg) R ty' ↔ R = "M" ∧ ty' = ty := by
  constructor
  · rintro ⟨top, res, props, e, h1, h2, h3⟩
    simp only [exSub, Val.dict.injEq] at e
    subst e
    simp at h1
    subst h1
    simp at h2
    obtain ⟨rfl, rfl⟩ := h2
    simp at h3
    exact ⟨rfl, h3⟩
  · rintro ⟨rfl, rfl⟩
    exact ⟨_, _, _, rfl, List.mem_cons_self, List.mem_cons_self, List.mem_cons_self⟩

theorem exSub_sections {ty : String} {arg : Val} (hw : arg.WF)
    (hs : searchDeepKeys "Fn::Sub" (exSub ty arg) (.dict []) = [(exSubPath ++ [.str "Fn::Sub"], arg)])
    (ht : ∀ s, arg = .str s ∨ (∃ b, arg = .list [.str s, b]) → ∃ ns, SubText s.toList ns) : SubSections (exSub ty arg) where
  wf := exSub_wf hw
  object := ⟨_, rfl⟩
  section_ := by
    intro v h
    rw [exSub, at_dict_one] at h
    simp at h
    exact ⟨_, h⟩
  resources := by
    intro k v h
    obtain ⟨u, h1, h2⟩ := at_split (p := [.str "Resources"]) (q := [k]) h
    rw [exSub, at_dict_one] at h1
    simp at h1
    subst h1
    rw [at_dict_one] at h2
    simp at h2
    exact ⟨_, h2.2⟩
  parameters := by
    intro k v h
    obtain ⟨u, h1, h2⟩ := at_split (p := [.str "Parameters"]) (q := [k]) h
    rw [exSub, at_dict_one] at h1
    simp at h1
    subst h1
    rw [at_dict_one] at h2
    simp at h2
    exact ⟨_, h2.2⟩
  texts := fun q s h => ht s (.inl (exSub_only hw hs h).symm)
  pairs := fun q s b h => ht s (.inr ⟨b, (exSub_only hw hs h).symm⟩)

theorem subText_one (n : String) (h1 : SubName n.toList) (h2 : n.toList ≠ []) (h3 : n.toList.head? ≠ some '!') :
    SubText ("${" ++ n ++ "}").toList [n.toList] := by
  have := SubText.var (l := []) (r := []) (by intro c h; cases h) h1 h2 h3 (by intro c h; cases h) SubText.nil
  simpa using this

theorem exSub_closed {arg : Val} : ClosedTypes (exSub "A::B" arg) where
  stack := by
    intro R ty h h1
    obtain ⟨rfl, rfl⟩ := exSub_has.1 h
    exact absurd (startsAs_iff.2 h1) (by decide)
  custom := by
    intro R ty h h1
    obtain ⟨rfl, rfl⟩ := exSub_has.1 h
    exact absurd (startsAs_iff.2 h1) (by decide)

theorem exSub_module_closed {arg : Val} : ClosedTypes (exSub "A::B::MODULE" arg) where
  stack := by
    intro R ty h h1
    obtain ⟨rfl, rfl⟩ := exSub_has.1 h
    exact absurd (startsAs_iff.2 h1) (by decide)
  custom := by
    intro R ty h h1
    obtain ⟨rfl, rfl⟩ := exSub_has.1 h
    exact absurd (startsAs_iff.2 h1) (by decide)

theorem plainSpecs_maps : MapAttrs plainSpecs := ⟨plainSpecs_plain.noStar, plainSpecs_plain.maps⟩

/-- a call with a list in the text and an unknown name behind a variable -/
def exSubArg : Val := .list [.str "${P}", .dict [(.str "Q", .dict [(.str "Ref", .str "N")]), (.str "U", .list []),
  (.str "V", .dict [(.str "Fn::GetAtt", .list [.str "M", .str "Arn"])])]]

/-- the hypotheses of `C71_exact_partial` are met -/
example : ∃ res, subRule plainSpecs (exSub "A::B" exSubArg) (.dict []) = .ok res ∧
    ∀ p k, (p, k) ∈ res ↔ SubFault plainSpecs (exSub "A::B" exSubArg) False p k := by
  have hw : exSubArg.WF := by simp [exSubArg, Val.WF, Val.WFDict, Val.WFList]
  have hs : searchDeepKeys "Fn::Sub" (exSub "A::B" exSubArg) (.dict []) = [(exSubPath ++ [.str "Fn::Sub"], exSubArg)] := by decide
  refine C71_exact_partial plainSpecs_maps (exSub_sections hw hs ?_) exSub_closed ⟨?_, ?_⟩
  · rintro s (e | ⟨b, e⟩)
    · cases e
    · simp only [exSubArg, Val.list.injEq, List.cons.injEq, Val.str.injEq] at e
      rw [← e.1]
      exact ⟨_, subText_one "P" (by unfold SubName; decide) (by decide) (by decide)⟩
  · intro q a m h
    have := exSub_only hw hs h
    simp only [exSubArg, Val.list.injEq, List.cons.injEq] at this
    exact ⟨_, this.1⟩
  · intro q a m x v h hx
    have := exSub_only hw hs h
    simp only [exSubArg, Val.list.injEq, List.cons.injEq, Val.dict.injEq] at this
    obtain ⟨_, rfl, _⟩ := this
    simp at hx
    exact ⟨_, hx.2⟩

example : subRule plainSpecs (exSub "A::B" exSubArg) (.dict []) =
    .ok [(exSubPath ++ [.str "Fn::Sub", .int 0], .list), (exSubPath ++ [.str "Fn::Sub"], .unknown), (exSubPath ++ [.str "Fn::Sub", .str "U"], .value)] := by
  decide

example : subRule plainSpecs (exSub "A::B" (.str "${M.Outs.x}${ M.Arn }${M.Arm}${AWS::Region}")) (.dict []) =
    .ok [(exSubPath ++ [.str "Fn::Sub"], .unknown)] := by
  decide

/-- A resource that a module provides is reported as unknown. -/
theorem C71_module_violated : ¬ C71_statement := by
  intro h
  have hw : (Val.str "${MBucket}").WF := by simp [Val.WF]
  have hs : searchDeepKeys "Fn::Sub" (exSub "A::B::MODULE" (.str "${MBucket}")) (.dict []) = [(exSubPath ++ [.str "Fn::Sub"], .str "${MBucket}")] := by decide
  have hst : SubText "${MBucket}".toList ["MBucket".toList] := subText_one "MBucket" (by unfold SubName; decide) (by decide) (by decide)
  obtain ⟨res, h1, h2⟩ := h plainSpecs _ plainSpecs_maps (exSub_sections hw hs (by
    rintro s (e | ⟨b, e⟩)
    · injection e with e
      rw [← e]
      exact ⟨_, hst⟩
    · cases e)) exSub_module_closed
  have h3 : subRule plainSpecs (exSub "A::B::MODULE" (.str "${MBucket}")) (.dict []) = .ok [(exSubPath ++ [.str "Fn::Sub"], .unknown)] := by decide
  rw [h3] at h1
  injection h1 with h1
  subst h1
  have hf := (h2 _ _).1 (List.mem_cons_self (a := (exSubPath ++ [Key.str "Fn::Sub"], SubKind.unknown)) (l := []))
  have hin : InsideModule (exSub "A::B::MODULE" (.str "${MBucket}")) "MBucket" :=
    ⟨"M", _, exSub_has.2 ⟨rfl, rfl⟩, endsWith_iff.1 (by decide), startsAs_iff.1 (by decide)⟩
  generalize hp : exSubPath ++ [Key.str "Fn::Sub"] = p at hf
  generalize hk : SubKind.unknown = k at hf
  cases hf with
  | text hat hx hn =>
    have e := exSub_only hw hs hat
    injection e with e
    subst e
    have hx' := (subVar_found hst).2 hx
    have hps : subParams "${MBucket}" = ["MBucket"] := by decide
    rw [hps] at hx'
    simp only [List.mem_cons, List.not_mem_nil, or_false] at hx'
    subst hx'
    cases hn with
    | unknown _ h4 => exact h4 ⟨trivial, hin⟩
    | list => cases hk
  | pair hat => cases exSub_only hw hs hat
  | first hat => cases hk
  | second hat => cases hk
  | length hat => cases hk
  | shape hat => cases hk
  | function hat => cases hk
  | object hat => cases hk
  | value hat => cases hk
  | ref hat => cases exSub_only hw hs hat
  | getAtt hat => cases exSub_only hw hs hat

/-- The rule raises when something else than a text stands before the variables. -/
theorem C71_first_violated : ¬ C71_statement := by
  intro h
  obtain ⟨res, h1, _⟩ := h plainSpecs (exSub "A::B" (.list [.dict [], .dict []])) plainSpecs_maps (exSub_sections (by simp [Val.WF, Val.WFDict, Val.WFList]) (by decide) (by
    rintro s (e | ⟨b, e⟩)
    · cases e
    · simp at e)) exSub_closed
  have h2 : subRule plainSpecs (exSub "A::B" (.list [.dict [], .dict []])) (.dict []) = .error (.typeError "expected string or bytes-like object") := by decide
  rw [h2] at h1
  cases h1

/-- The rule raises when a variable refers to something that is no text. -/
theorem C71_ref_violated : ¬ C71_statement := by
  intro h
  obtain ⟨res, h1, _⟩ := h plainSpecs (exSub "A::B" (.list [.str "", .dict [(.str "V", .dict [(.str "Ref", .list [])])]])) plainSpecs_maps
    (exSub_sections (by simp [Val.WF, Val.WFDict, Val.WFList]) (by decide) (by
    rintro s (e | ⟨b, e⟩)
    · cases e
    · simp only [Val.list.injEq, List.cons.injEq, Val.str.injEq] at e
      rw [← e.1]
      exact ⟨[], .nil⟩)) exSub_closed
  have h2 : subRule plainSpecs (exSub "A::B" (.list [.str "", .dict [(.str "V", .dict [(.str "Ref", .list [])])]])) (.dict []) =
    .error (.typeError "unhashable type") := by decide
  rw [h2] at h1
  cases h1

/-- The path of a finding about a variable leads nowhere: the index of the object of variables is left out. -/
theorem C71_path_violated : ∃ p k, (∃ res, subRule plainSpecs (exSub "A::B" exSubArg) (.dict []) = .ok res ∧ (p, k) ∈ res) ∧
    ∀ v, ¬ At (exSub "A::B" exSubArg) p v := by
  refine ⟨exSubPath ++ [.str "Fn::Sub", .str "U"], .value, ⟨_, (by decide : subRule plainSpecs (exSub "A::B" exSubArg) (.dict []) = .ok
    [(exSubPath ++ [.str "Fn::Sub", .int 0], .list), (exSubPath ++ [.str "Fn::Sub"], .unknown), (exSubPath ++ [.str "Fn::Sub", .str "U"], .value)]), by simp⟩, ?_⟩
  intro v h
  have hw : (exSub "A::B" exSubArg).WF := exSub_wf (by simp [exSubArg, Val.WF, Val.WFDict, Val.WFList])
  obtain ⟨u, h1, h2⟩ := at_split (p := exSubPath ++ [.str "Fn::Sub"]) (q := [.str "U"]) h
  rw [← at_det hw exSub_at h1] at h2
  cases h2

end CfnLint
