import Verif.Model.FnShape
import Verif.Spec.FnShape
import Verif.Props.CondGrammar
import Verif.Lemmas.Sub
import Verif.Lemmas.Json
/- Properties of the rules on the form of calls (C72). -/
namespace CfnLint
open Spec

/-- what may follow a digit of a numeral -/
def DigitTail (cs : List Char) : Prop := cs = [] ∨ DigitRun cs ∨ ∃ r, cs = '_' :: r ∧ DigitRun r

theorem digitRun_cons {d : Char} {r : List Char} : DigitRun (d :: r) ↔ d.isDigit = true ∧ DigitTail r := by
  rw [isDigit_iff]
  constructor
  · intro h
    cases h with
    | one h1 h2 => exact ⟨⟨h1, h2⟩, .inl rfl⟩
    | more h1 h2 h => exact ⟨⟨h1, h2⟩, .inr (.inl h)⟩
    | gap h1 h2 h => exact ⟨⟨h1, h2⟩, .inr (.inr ⟨_, rfl, h⟩)⟩
  · rintro ⟨⟨h1, h2⟩, rfl | h | ⟨r, rfl, h⟩⟩
    · exact .one h1 h2
    · exact .more h1 h2 h
    · exact .gap h1 h2 h

theorem not_digitRun_underscore {r : List Char} : ¬ DigitRun ('_' :: r) := by
  rw [digitRun_cons]
  rintro ⟨h, _⟩
  revert h
  decide

theorem pyDigits_some : ∀ (m : Nat) (cs : List Char) (n : Nat), cs.length ≤ m → ((pyDigits (some n) cs).isSome = true ↔ DigitTail cs)
  | _, [], n, _ => by simp [pyDigits, DigitTail]
  | 0, c :: cs, n, h => by simp at h
  | m + 1, c :: cs, n, h => by
    have hl : cs.length ≤ m := by simpa using h
    by_cases hc : c = '_'
    · subst hc
      have e : DigitTail ('_' :: cs) ↔ DigitRun cs := by
        unfold DigitTail
        constructor
        · rintro (h | h | ⟨r, h, h'⟩)
          · cases h
          · exact absurd h not_digitRun_underscore
          · cases h; exact h'
        · intro h
          exact .inr (.inr ⟨_, rfl, h⟩)
      rw [e]
      cases cs with
      | nil =>
        constructor
        · intro h
          simp [pyDigits] at h
        · intro h
          cases h
      | cons d ds =>
        rw [digitRun_cons, pyDigits]
        by_cases hd : d.isDigit = true
        · simp only [hd, if_true, true_and]
          exact pyDigits_some m ds _ (by simp at hl; omega)
        · simp [hd]
    · have e : pyDigits (some n) (c :: cs) = if c.isDigit then pyDigits (some (10 * n + (c.toNat - 48))) cs else none := by
        rw [pyDigits]
        · rfl
        · intro c' cs' h _; exact hc h
      rw [e]
      have e' : DigitTail (c :: cs) ↔ DigitRun (c :: cs) := by
        unfold DigitTail
        constructor
        · rintro (h | h | ⟨r, h, h'⟩)
          · cases h
          · exact h
          · cases h; exact absurd rfl hc
        · exact fun h => .inr (.inl h)
      rw [e', digitRun_cons]
      by_cases hd : c.isDigit = true
      · simp only [hd, if_true, true_and]
        exact pyDigits_some m cs _ hl
      · simp [hd]

theorem pyDigits_none (cs : List Char) : (pyDigits none cs).isSome = true ↔ DigitRun cs := by
  cases cs with
  | nil =>
    simp only [pyDigits, Option.isSome_none, Bool.false_eq_true, false_iff]
    intro h
    cases h
  | cons c cs =>
    by_cases hc : c = '_'
    · subst hc
      refine ⟨fun h => ?_, fun h => absurd h not_digitRun_underscore⟩
      cases cs <;> simp [pyDigits] at h
    · have e : pyDigits none (c :: cs) = if c.isDigit then pyDigits (some (c.toNat - 48)) cs else none := by
        rw [pyDigits]
        · simp
        · intro c' cs' h _; exact hc h
      rw [e, digitRun_cons]
      by_cases hd : c.isDigit = true
      · simp only [hd, if_true, true_and]
        exact pyDigits_some _ cs _ (Nat.le_refl _)
      · simp [hd]

theorem dropWhile_spaces {l : List Char} (h : ∀ c ∈ l, WhiteSpace c) (r : List Char) :
    (l ++ r).dropWhile isPySpace = r.dropWhile isPySpace := by
  induction l with
  | nil => rfl
  | cons c l ih =>
    rw [List.cons_append, List.dropWhile_cons_of_pos (isPySpace_iff.2 (h c List.mem_cons_self))]
    exact ih fun c hc => h c (List.mem_cons_of_mem _ hc)

theorem dropWhile_solid {x : List Char} (h : ∀ c, x.head? = some c → ¬ WhiteSpace c) (hne : x ≠ []) (r : List Char) :
    (x ++ r).dropWhile isPySpace = x ++ r := by
  cases x with
  | nil => exact absurd rfl hne
  | cons c x =>
    rw [List.cons_append, List.dropWhile_cons_of_neg]
    rw [isPySpace_iff]
    exact h c rfl

theorem trimmed_unique {b x : List Char} (h : Trimmed b x) : pyStrip b = x := by
  obtain ⟨⟨l, r, rfl, hl, hr⟩, hh, ht⟩ := h
  unfold pyStrip
  have hr' : ∀ c ∈ r.reverse, WhiteSpace c := fun c hc => hr c (List.mem_reverse.1 hc)
  by_cases hx : x = []
  · subst hx
    rw [dropWhile_spaces hl]
    have := dropWhile_spaces hr []
    rw [List.append_nil] at this
    rw [List.nil_append, this]
    rfl
  · rw [dropWhile_spaces hl, dropWhile_solid hh hx, List.reverse_append, dropWhile_spaces hr']
    have := dropWhile_solid (x := x.reverse) (by intro c hc; rw [List.head?_reverse] at hc; exact ht c hc) (by simpa using hx) []
    rw [List.append_nil] at this
    rw [this, List.reverse_reverse]

theorem isIntText_iff {s : String} : isIntText s = true ↔ WholeText s := by
  have hd : ∀ {c : Char} {ds}, DigitRun (c :: ds) → c ≠ '-' ∧ c ≠ '+' := by
    intro c ds h
    obtain ⟨h, -⟩ := digitRun_cons.1 h
    constructor <;> rintro rfl <;> revert h <;> decide
  unfold isIntText
  constructor
  · intro h
    refine ⟨_, pyStrip_trimmed s.toList, ?_⟩
    split at h
    · rename_i cs he
      exact ⟨['-'], cs, he, by simp, (pyDigits_none cs).1 h⟩
    · rename_i cs he
      exact ⟨['+'], cs, he, by simp, (pyDigits_none cs).1 h⟩
    · exact ⟨[], _, rfl, by simp, (pyDigits_none _).1 h⟩
  · rintro ⟨n, hn, sgn, ds, rfl, hs, hds⟩
    rw [trimmed_unique hn]
    simp only [List.mem_cons, List.not_mem_nil, or_false] at hs
    rcases hs with rfl | rfl | rfl
    · cases ds with
      | nil => cases hds
      | cons c ds =>
        obtain ⟨h1, h2⟩ := hd hds
        rw [List.nil_append]
        split
        · rename_i h; cases h; exact absurd rfl h1
        · rename_i h; cases h; exact absurd rfl h2
        · exact (pyDigits_none _).2 hds
    · exact (pyDigits_none _).2 hds
    · exact (pyDigits_none _).2 hds

theorem isText_iff {v : Val} : isText v = true ↔ ∃ s, v = .str s := by cases v <;> simp [isText]

theorem notText_iff {v : Val} : isText v = false ↔ ∀ s, v ≠ .str s := by cases v <;> simp [isText]

theorem oneCall_dict {fs : List String} {k : Key} {a : Val} : OneCall fs (.dict [(k, a)]) ↔ isKeyIn k fs = true := by
  rw [isKeyIn_iff]
  unfold OneCall
  constructor
  · rintro ⟨f, hf, a', h⟩
    cases h
    exact ⟨f, hf, rfl⟩
  · rintro ⟨f, hf, rfl⟩
    exact ⟨f, hf, a, rfl⟩

/-- the loop finds what the check of each call finds -/
theorem callRule_iff {fn : String} {check : Path → Val → PyM (List Path)} {Bad : Path → Val → Path → Prop} {t : Val} (hw : t.WF)
    (hc : ∀ q v, At t (q ++ [.str fn]) v → ∃ l, check (q ++ [.str fn]) v = .ok l ∧
      ∀ p, p ∈ l ↔ ∃ s, Bad (q ++ [.str fn]) v s ∧ p = q ++ [.str fn] ++ s) :
    ∃ res, callRule fn check t (.dict []) = .ok res ∧ ∀ p, p ∈ res ↔ BadCall fn Bad t p := by
  have hs := (C27_search_partial fn t hw).1
  obtain ⟨res, hr⟩ := collectM_ok (f := fun f : Path × Val => check f.1 f.2) (as := searchDeepKeys fn t (.dict [])) (by
    rintro ⟨p, v⟩ h
    obtain ⟨hat, q, rfl⟩ := (hs p v).1 h
    obtain ⟨l, hl, -⟩ := hc q v hat
    exact ⟨l, hl⟩)
  refine ⟨res, hr, fun p => ?_⟩
  rw [mem_collectM hr]
  constructor
  · rintro ⟨⟨p', v⟩, h, l, hl, hp⟩
    obtain ⟨hat, q, rfl⟩ := (hs p' v).1 h
    obtain ⟨l', hl', hmem⟩ := hc q v hat
    rw [hl'] at hl
    cases hl
    obtain ⟨s, hb, rfl⟩ := (hmem p).1 hp
    exact ⟨q, v, s, hat, hb, rfl⟩
  · rintro ⟨q, v, s, hat, hb, rfl⟩
    obtain ⟨l, hl, hmem⟩ := hc q v hat
    exact ⟨(q ++ [.str fn], v), (hs _ _).2 ⟨hat, q, rfl⟩, l, hl, (hmem _).2 ⟨s, hb, rfl⟩⟩

/-- a check that raises for one call makes the rule raise -/
theorem callRule_raises {fn : String} {check : Path → Val → PyM (List Path)} {t : Val} (hw : t.WF) {q : Path} {v : Val}
    (h : At t (q ++ [.str fn]) v) (hc : ∀ l, check (q ++ [.str fn]) v ≠ .ok l) : ∀ res, callRule fn check t (.dict []) ≠ .ok res := by
  intro res hr
  obtain ⟨l, hl⟩ := collectM_each hr (q ++ [.str fn], v) (((C27_search_partial fn t hw).1 _ _).2 ⟨h, q, rfl⟩)
  exact hc l hl

/-- **C72** for `Fn::If`, in full: the findings of rule E1028 are the faults of the calls. It does not hold, since an empty list
makes the rule raise (`C72_if_violated`). -/
def C72_if_statement : Prop := ∀ t : Val, t.WF → ∃ res, ifRule t (.dict []) = .ok res ∧ ∀ p, p ∈ res ↔ BadCall "Fn::If" BadIf t p

/-- **C72** (partial: no call with an empty list) -/
theorem C72_if_partial {t : Val} (hw : t.WF) (he : ∀ q, ¬ At t (q ++ [.str "Fn::If"]) (.list [])) :
    ∃ res, ifRule t (.dict []) = .ok res ∧ ∀ p, p ∈ res ↔ BadCall "Fn::If" BadIf t p := by
  refine callRule_iff hw fun q v hat => ?_
  have he' := he q
  generalize q ++ [Key.str "Fn::If"] = p at *
  have hother : (∀ xs, v ≠ .list xs) → ∃ l, ifShape p v = .ok l ∧ ∀ p', p' ∈ l ↔ ∃ s, BadIf p v s ∧ p' = p ++ s := by
    intro h
    refine ⟨[p], ?_, fun p' => ?_⟩
    · cases v <;> first | rfl | exact absurd rfl (h _)
    · rw [List.mem_singleton]
      constructor
      · rintro rfl
        exact ⟨[], .size fun a b c h' => h _ h', by simp⟩
      · rintro ⟨s, hb, rfl⟩
        cases hb with
        | size _ => simp
        | condition _ => exact absurd rfl (h _)
  cases v with
  | list xs =>
    cases xs with
    | nil => exact absurd hat he'
    | cons c xs =>
      refine ⟨_, rfl, fun p' => ?_⟩
      rw [List.mem_append]
      constructor
      · rintro (h | h)
        · split at h
          · rename_i hl
            cases List.mem_singleton.1 h
            refine ⟨[], .size ?_, by simp⟩
            rintro a b c' h'
            cases h'
            exact hl rfl
          · cases h
        · split at h
          · cases h
          · rename_i hc
            cases List.mem_singleton.1 h
            exact ⟨_, .condition (notText_iff.1 (by simpa using hc)), rfl⟩
      · rintro ⟨s, hb, rfl⟩
        cases hb with
        | size h =>
          left
          rw [if_pos]
          · simp
          · intro hl
            match xs, hl with
            | [a, b], _ => exact h _ _ _ rfl
        | condition h =>
          right
          rw [if_neg (by rw [notText_iff.2 h]; simp)]
          simp
  | _ => exact hother (by intro xs h; cases h)

/-- Rule E1028 raises as soon as one call has an empty list: the first element is read before the length is looked at
(If.py:28). -/
theorem C72_if_raises {t : Val} (hw : t.WF) {q : Path} (h : At t (q ++ [.str "Fn::If"]) (.list [])) :
    ∀ res, ifRule t (.dict []) ≠ .ok res :=
  callRule_raises hw h (by intro l hl; cases hl)

theorem C72_if_violated : ¬ C72_if_statement := by
  intro h
  obtain ⟨res, hr, -⟩ := h (.dict [(.str "Fn::If", .list [])]) (by simp [Val.WF, Val.WFDict, Val.WFList])
  exact C72_if_raises (q := []) (by simp [Val.WF, Val.WFDict, Val.WFList]) (.key (by simp) .here) res hr

/-- **C72** for `Fn::Select`, in full: the findings of rule E1017 are the faults of the calls. -/
def C72_select_statement : Prop :=
  ∀ t : Val, t.WF → ∃ res, selectRule t (.dict []) = .ok res ∧ ∀ p, p ∈ res ↔ BadCall "Fn::Select" BadSelect t p

theorem selectList_iff {v : Val} : selectList v = true ↔ SelectSource v := by
  have hn : (∀ xs, v ≠ .list xs) → (∀ k a, v ≠ .dict [(k, a)]) → ¬ SelectSource v := by
    intro h1 h2 h
    cases h with
    | list => exact h1 _ rfl
    | call h =>
      obtain ⟨f, -, a, rfl⟩ := h
      exact h2 _ _ rfl
  unfold selectList
  split
  · rename_i k a
    rw [show selectFunctions = ["Fn::FindInMap", "Fn::GetAtt", "Fn::GetAZs", "Fn::If", "Fn::Split", "Fn::Cidr", "Ref"] from rfl,
      ← oneCall_dict (a := a)]
    exact ⟨.call, fun h => by cases h; assumption⟩
  · exact ⟨fun _ => .list, fun _ => rfl⟩
  · rename_i h1 h2
    refine ⟨fun h => (by cases h), fun h => absurd h (hn h2 ?_)⟩
    exact h1

/-- an index that is a number, a text or an object with one key -/
def PlainIndex (v : Val) : Prop := (∃ n, v = .int n) ∨ (∃ s, v = .str s) ∨ ∃ k a, v = .dict [(k, a)]

theorem selectIndex_iff {v : Val} (h : PlainIndex v) : ∃ b, selectIndex v = .ok b ∧ (b = true ↔ SelectIndex v) := by
  rcases h with ⟨n, rfl⟩ | ⟨s, rfl⟩ | ⟨k, a, rfl⟩
  · exact ⟨true, rfl, fun _ => .int, fun _ => rfl⟩
  · refine ⟨isIntText s, rfl, ?_⟩
    rw [isIntText_iff]
    refine ⟨.text, fun h => ?_⟩
    cases h with
    | text h => exact h
    | call h =>
      obtain ⟨f, -, a, h⟩ := h
      cases h
  · refine ⟨isKeyIn k ["Ref", "Fn::FindInMap"], rfl, ?_⟩
    rw [← oneCall_dict (a := a)]
    exact ⟨.call, fun h => by cases h; assumption⟩

/-- **C72** (partial: the index is a number, a text or an object with one key) -/
theorem C72_select_partial {t : Val} (hw : t.WF) (hi : ∀ q i l, At t (q ++ [.str "Fn::Select"]) (.list [i, l]) → PlainIndex i) :
    ∃ res, selectRule t (.dict []) = .ok res ∧ ∀ p, p ∈ res ↔ BadCall "Fn::Select" BadSelect t p := by
  refine callRule_iff hw fun q v hat => ?_
  have hi' := hi q
  generalize q ++ [Key.str "Fn::Select"] = p at *
  unfold selectShape
  split
  · rename_i i l
    obtain ⟨b, hb, hbi⟩ := selectIndex_iff (hi' i l hat)
    rw [hb]
    refine ⟨_, rfl, fun p' => ?_⟩
    have hl := selectList_iff (v := l)
    unfold BadSelect
    constructor
    · intro h
      have : p' = p ∧ ¬ (b = true ∧ selectList l = true) := by
        rcases List.mem_append.1 h with h | h <;> split at h
        · cases h
        · rename_i hb
          exact ⟨List.mem_singleton.1 h, fun h => hb h.1⟩
        · cases h
        · rename_i hb
          exact ⟨List.mem_singleton.1 h, fun h => hb h.2⟩
      obtain ⟨rfl, hno⟩ := this
      refine ⟨[], ⟨rfl, ?_⟩, by simp⟩
      rintro ⟨i', l', he, h1, h2⟩
      cases he
      exact hno ⟨hbi.2 h1, hl.2 h2⟩
    · rintro ⟨s, ⟨rfl, hno⟩, rfl⟩
      rw [List.append_nil]
      by_cases h1 : b = true
      · by_cases h2 : selectList l = true
        · exact absurd ⟨i, l, rfl, hbi.1 h1, hl.1 h2⟩ hno
        · exact List.mem_append_right _ (by simp [h2])
      · exact List.mem_append_left _ (by simp [h1])
  · rename_i hn
    refine ⟨_, rfl, fun p' => ?_⟩
    rw [List.mem_singleton]
    constructor
    · rintro rfl
      exact ⟨[], ⟨rfl, by rintro ⟨i, l, rfl, -⟩; exact hn _ _ rfl⟩, by simp⟩
    · rintro ⟨s, ⟨rfl, -⟩, rfl⟩
      simp

/-- Rule E1017 raises as soon as the index of one call is a list or nothing at all (Select.py:49). -/
theorem C72_select_raises {t : Val} (hw : t.WF) {q : Path} {i l : Val} (h : At t (q ++ [.str "Fn::Select"]) (.list [i, l]))
    (hi : i = .none ∨ ∃ xs, i = .list xs) : ∀ res, selectRule t (.dict []) ≠ .ok res := by
  refine callRule_raises hw h ?_
  intro l hl
  rcases hi with rfl | ⟨xs, rfl⟩ <;> cases hl

/-- Rule E1017 accepts an index that is an object with several keys. -/
theorem C72_select_violated : ¬ C72_select_statement := by
  intro h
  have hw : (Val.dict [(.str "Fn::Select", .list [.dict [], .list []])]).WF := by simp [Val.WF, Val.WFDict, Val.WFList]
  obtain ⟨res, hr, hmem⟩ := h _ hw
  have hr' : selectRule (.dict [(.str "Fn::Select", .list [.dict [], .list []])]) (.dict []) = .ok [] := by rfl
  rw [hr'] at hr
  cases hr
  refine absurd ((hmem [.str "Fn::Select"]).2 ⟨[], _, [], .key List.mem_cons_self .here, ⟨rfl, ?_⟩, rfl⟩) (by simp)
  rintro ⟨i, l, he, h1, -⟩
  cases he
  cases h1 with
  | call h =>
    obtain ⟨f, -, a, h⟩ := h
    cases h

/-- **C72** for `Fn::Split`, in full: the findings of rule E1018 are the faults of the calls. -/
def C72_split_statement : Prop :=
  ∀ t : Val, t.WF → ∃ res, splitRule t (.dict []) = .ok res ∧ ∀ p, p ∈ res ↔ BadCall "Fn::Split" BadSplit t p

/-- where rule E1018 reports the text of a call: below the key of an unsupported function instead of at the call -/
inductive SplitReport : Path → Val → Path → Prop
  | size {p v} : (∀ a b, v ≠ .list [a, b]) → SplitReport p v []
  | delimiter {p a b} : (∀ s, a ≠ .str s) → SplitReport p (.list [a, b]) [.int 0]
  | source {p a b} : ¬ SplitSource b → (∀ k x, b ≠ .dict [(k, x)]) → SplitReport p (.list [a, b]) []
  | function {p a k x} : ¬ SplitSource (.dict [(k, x)]) → SplitReport p (.list [a, .dict [(k, x)]]) [k]

theorem splitSource_iff {k : Key} {a : Val} : isKeyIn k splitFunctions = true ↔ SplitSource (.dict [(k, a)]) := by
  rw [show splitFunctions = ["Fn::Base64", "Fn::FindInMap", "Fn::GetAZs", "Fn::GetAtt", "Fn::If", "Fn::ImportValue", "Fn::Join",
    "Fn::Select", "Fn::Sub", "Ref"] from rfl, ← oneCall_dict (a := a)]
  exact ⟨.call, fun h => by cases h; assumption⟩

/-- **C72** The findings of rule E1018 are the faults of the calls of `Fn::Split`, except that an unsupported function is
reported at a path that the template does not have (Split.py:53). -/
theorem C72_split_reports {t : Val} (hw : t.WF) :
    ∃ res, splitRule t (.dict []) = .ok res ∧ ∀ p, p ∈ res ↔ BadCall "Fn::Split" SplitReport t p := by
  refine callRule_iff hw fun q v hat => ?_
  generalize q ++ [Key.str "Fn::Split"] = p at *
  unfold splitShape
  split
  · rename_i d s
    refine ⟨_, rfl, fun p' => ?_⟩
    rw [List.mem_append]
    constructor
    · rintro (h | h)
      · split at h
        · cases h
        · rename_i hd
          exact ⟨_, .delimiter (notText_iff.1 (by simpa using hd)), List.mem_singleton.1 h⟩
      · unfold splitSource at h
        split at h
        · split at h
          · cases h
          · rename_i k a hk
            exact ⟨_, .function (fun h => hk (splitSource_iff.2 h)), List.mem_singleton.1 h⟩
        · cases h
        · rename_i h1 h2
          refine ⟨[], .source ?_ h1, by simpa using h⟩
          intro hs
          cases hs with
          | text => exact h2 _ rfl
          | call hs =>
            obtain ⟨f, -, a, rfl⟩ := hs
            exact h1 _ _ rfl
    · rintro ⟨x, hb, rfl⟩
      cases hb with
      | size h => exact absurd rfl (h _ _)
      | delimiter h =>
        left
        rw [if_neg (by rw [notText_iff.2 h]; simp)]
        simp
      | source h1 h2 =>
        right
        unfold splitSource
        split
        · exact absurd rfl (h2 _ _)
        · exact absurd .text h1
        · simp
      | function h =>
        right
        rw [splitSource, if_neg (fun hk => h (splitSource_iff.1 hk))]
        simp
  · rename_i hn
    refine ⟨_, rfl, fun p' => ?_⟩
    rw [List.mem_singleton]
    constructor
    · rintro rfl
      exact ⟨[], .size hn, by simp⟩
    · rintro ⟨s, hb, rfl⟩
      cases hb with
      | size _ => simp
      | delimiter _ => exact absurd rfl (hn _ _)
      | source _ _ => exact absurd rfl (hn _ _)
      | function _ => exact absurd rfl (hn _ _)

/-- **C72** (partial: no call of an unsupported function as the text) -/
theorem C72_split_partial {t : Val} (hw : t.WF)
    (hs : ∀ q a k x, At t (q ++ [.str "Fn::Split"]) (.list [a, .dict [(k, x)]]) → SplitSource (.dict [(k, x)])) :
    ∃ res, splitRule t (.dict []) = .ok res ∧ ∀ p, p ∈ res ↔ BadCall "Fn::Split" BadSplit t p := by
  obtain ⟨res, hr, hmem⟩ := C72_split_reports hw
  refine ⟨res, hr, fun p => (hmem p).trans ?_⟩
  constructor
  · rintro ⟨q, v, s, hat, hb, rfl⟩
    refine ⟨q, v, s, hat, ?_, rfl⟩
    generalize q ++ [Key.str "Fn::Split"] = p' at hb
    cases hb with
    | size h => exact .size h
    | delimiter h => exact .delimiter h
    | source h _ => exact .source h
    | function h => exact absurd (hs _ _ _ _ hat) h
  · rintro ⟨q, v, s, hat, hb, rfl⟩
    refine ⟨q, v, s, hat, ?_, rfl⟩
    generalize q ++ [Key.str "Fn::Split"] = p' at hb
    cases hb with
    | size h => exact .size h
    | delimiter h => exact .delimiter h
    | source h =>
      refine .source h ?_
      rintro k x rfl
      exact h (hs _ _ _ _ hat)

theorem C72_split_violated : ¬ C72_split_statement := by
  intro h
  have hw : (Val.dict [(.str "Fn::Split", .list [.str ",", .dict [(.str "Fn::Cidr", .str "a")]])]).WF := by
    simp [Val.WF, Val.WFDict, Val.WFList]
  obtain ⟨res, hr, hmem⟩ := h _ hw
  obtain ⟨res', hr', hmem'⟩ := C72_split_reports hw
  rw [hr] at hr'
  cases hr'
  have h1 : [Key.str "Fn::Split", .str "Fn::Cidr"] ∈ res := (hmem' _).2 ⟨[], _, _, .key List.mem_cons_self .here, .function (by
    intro h
    cases h with
    | call h =>
      obtain ⟨f, hf, a, h⟩ := h
      cases h
      revert hf
      decide), rfl⟩
  obtain ⟨q, v, s, hat, hb, he⟩ := (hmem _).1 h1
  have hs : s = [] ∨ s = [.int 0] := by
    generalize q ++ [Key.str "Fn::Split"] = p' at hb
    cases hb with
    | size _ => exact .inl rfl
    | delimiter _ => exact .inr rfl
    | source _ => exact .inl rfl
  have := congrArg List.getLast? he
  rcases hs with rfl | rfl <;> simp at this

/-- **C72** The findings of rule E1016 are the faults of the calls of `Fn::ImportValue`. -/
theorem C72_import {t : Val} (hw : t.WF) :
    ∃ res, importRule t (.dict []) = .ok res ∧ ∀ p, p ∈ res ↔ BadCall "Fn::ImportValue" BadImport t p := by
  refine callRule_iff hw fun q v hat => ?_
  generalize q ++ [Key.str "Fn::ImportValue"] = p at *
  refine ⟨_, rfl, fun p' => ?_⟩
  rw [List.mem_append]
  have hp : p.head? = some (.str "Conditions") ↔ ∃ r, p = .str "Conditions" :: r := by
    cases p <;> simp
  have hf : ∀ {k : Key} {a : Val}, isKeyIn k importFunctions = true ↔
      OneCall ["Fn::Base64", "Fn::FindInMap", "Fn::If", "Fn::Join", "Fn::Select", "Fn::Split", "Fn::Sub", "Ref"] (.dict [(k, a)]) := by
    intro k a
    rw [oneCall_dict]
    rfl
  constructor
  · rintro (h | h)
    · split at h
      · rename_i hh
        obtain ⟨r, rfl⟩ := hp.1 hh
        exact ⟨[], .place, by simpa using h⟩
      · cases h
    · refine ⟨[], ?_, ?_⟩
      · split at h
        · split at h
          · cases h
          · rename_i k a hk
            exact .value (by simp) (fun h => hk (hf.2 h))
        · cases h
        · rename_i h1 h2
          refine .value h2 ?_
          rintro ⟨f, -, a, rfl⟩
          exact h1 _ _ rfl
      · rw [List.append_nil]
        split at h
        · split at h
          · cases h
          · exact List.mem_singleton.1 h
        · cases h
        · exact List.mem_singleton.1 h
  · rintro ⟨s, hb, rfl⟩
    cases hb with
    | place => left; simp
    | value h1 h2 =>
      right
      split
      · rw [if_neg (fun hk => h2 (hf.1 hk))]; simp
      · exact absurd rfl (h1 _)
      · simp

/-- **C72** The findings of rule E1021 are the faults of the calls of `Fn::Base64`. -/
theorem C72_base64 {t : Val} (hw : t.WF) :
    ∃ res, base64Rule t (.dict []) = .ok res ∧ ∀ p, p ∈ res ↔ BadCall "Fn::Base64" BadBase64 t p := by
  refine callRule_iff hw fun q v hat => ?_
  generalize q ++ [Key.str "Fn::Base64"] = p at *
  unfold base64Shape BadBase64
  split
  · rename_i k a
    refine ⟨_, rfl, fun p' => ?_⟩
    by_cases hk : k = .str "Fn::Split"
    · subst hk
      simp
    · simp [hk]
  · exact ⟨_, rfl, fun p' => by simp⟩
  · rename_i h1 h2
    refine ⟨_, rfl, fun p' => ?_⟩
    rw [List.mem_singleton]
    constructor
    · rintro rfl
      exact ⟨[], ⟨rfl, h2, fun k a h => absurd h (h1 k a)⟩, by simp⟩
    · rintro ⟨s, ⟨rfl, -⟩, rfl⟩
      simp

/-- **C72** for `Fn::GetAZs`, in full: the findings of rule E1015 are the faults of the calls. -/
def C72_zones_statement : Prop := ∀ (regions : List String) (t : Val), t.WF →
  ∃ res, getAzRule regions t (.dict []) = .ok res ∧ ∀ p, p ∈ res ↔ BadCall "Fn::GetAZs" (BadGetAz regions) t p

/-- **C72** (partial: the argument is a text or an object) -/
theorem C72_zones_partial (regions : List String) {t : Val} (hw : t.WF)
    (hv : ∀ q v, At t (q ++ [.str "Fn::GetAZs"]) v → (∃ s, v = .str s) ∨ ∃ kvs, v = .dict kvs) :
    ∃ res, getAzRule regions t (.dict []) = .ok res ∧ ∀ p, p ∈ res ↔ BadCall "Fn::GetAZs" (BadGetAz regions) t p := by
  refine callRule_iff hw fun q v hat => ?_
  have hv' := hv q v hat
  generalize q ++ [Key.str "Fn::GetAZs"] = p at *
  have key : ∀ (b : Prop) [Decidable b], (b ↔ ¬ ZonesOf regions v) → ∀ p' : Path,
      p' ∈ (if b then [p] else []) ↔ ∃ s, BadGetAz regions p v s ∧ p' = p ++ s := by
    intro b _ hb p'
    unfold BadGetAz
    by_cases h : b
    · simp [h, hb.1 h]
    · have := fun h' => h (hb.2 h')
      simp only [if_neg h, List.not_mem_nil, false_iff]
      rintro ⟨s, ⟨-, h'⟩, -⟩
      exact this h'
  unfold getAzShape
  split
  · rename_i s
    refine ⟨_, rfl, key _ ?_⟩
    constructor
    · rintro ⟨h1, h2⟩ h
      cases h with
      | here => exact h1 rfl
      | region h => exact h2 h
    · intro h
      refine ⟨?_, fun h' => h (.region h')⟩
      rintro rfl
      exact h .here
  · rename_i k a
    refine ⟨_, rfl, key _ ?_⟩
    constructor
    · intro h1 h
      cases h with
      | ref => simp at h1
    · intro h
      by_contra hc
      push Not at hc
      obtain ⟨rfl, rfl⟩ := hc
      exact h .ref
  · rename_i kvs h1
    refine ⟨[p], rfl, ?_⟩
    have := key True ⟨fun _ h => ?_, fun _ => trivial⟩
    · simpa using this
    · cases h with
      | ref => exact h1 _ _ rfl
  · rename_i h1 h2 h3
    rcases hv' with ⟨s, rfl⟩ | ⟨kvs, rfl⟩
    · exact absurd rfl (h1 _)
    · exact absurd rfl (h3 _)

/-- Rule E1015 says nothing about a list. -/
theorem C72_zones_violated : ¬ C72_zones_statement := by
  intro h
  obtain ⟨res, hr, hmem⟩ := h [] (.dict [(.str "Fn::GetAZs", .list [])]) (by simp [Val.WF, Val.WFDict, Val.WFList])
  have hr' : getAzRule [] (.dict [(.str "Fn::GetAZs", .list [])]) (.dict []) = .ok [] := by rfl
  rw [hr'] at hr
  cases hr
  exact absurd ((hmem [.str "Fn::GetAZs"]).2 ⟨[], _, [], .key List.mem_cons_self .here, ⟨rfl, by intro h; cases h⟩, rfl⟩) (by simp)

/-- **C72** The findings of rule E1023 are the calls of `Fn::Not` that are no lists. -/
theorem C72_not {t : Val} (hw : t.WF) : ∃ res, notRule t (.dict []) = .ok res ∧ ∀ p, p ∈ res ↔ BadCall "Fn::Not" BadNot t p := by
  refine callRule_iff hw fun q v hat => ?_
  generalize q ++ [Key.str "Fn::Not"] = p at *
  unfold notShape BadNot
  split
  · exact ⟨_, rfl, fun p' => by simp⟩
  · rename_i h
    refine ⟨_, rfl, fun p' => ?_⟩
    rw [List.mem_singleton]
    constructor
    · rintro rfl
      exact ⟨[], ⟨rfl, h⟩, by simp⟩
    · rintro ⟨s, ⟨rfl, -⟩, rfl⟩
      simp

/-- calls of the functions, right and wrong -/
def exCalls : Val :=
  .dict [(.str "Conditions", .dict [(.str "C", .dict [(.str "Fn::ImportValue", .str "x")]), (.str "D", .dict [(.str "Fn::Not", .str "x")])]),
    (.str "a", .dict [(.str "Fn::If", .list [.int 1, .str "y"])]),
    (.str "b", .dict [(.str "Fn::Select", .list [.str " +1_0\n", .list []])]),
    (.str "c", .dict [(.str "Fn::Select", .list [.str "1__0", .dict [(.str "Fn::Sub", .str "x")]])]),
    (.str "d", .dict [(.str "Fn::Split", .list [.int 1, .int 2])]),
    (.str "e", .dict [(.str "Fn::Base64", .dict [(.str "Fn::Split", .int 2)])]),
    (.str "f", .dict [(.str "Fn::GetAZs", .str "mars")]), (.str "g", .dict [(.str "Fn::GetAZs", .str "us-east-1")])]

theorem exCalls_wf : exCalls.WF := by simp [exCalls, Val.WF, Val.WFDict, Val.WFList]

example : ifRule exCalls (.dict []) = .ok [[.str "a", .str "Fn::If"], [.str "a", .str "Fn::If", .int 0]] := by rfl
example : selectRule exCalls (.dict []) = .ok [[.str "c", .str "Fn::Select"], [.str "c", .str "Fn::Select"]] := by rfl
example : splitRule exCalls (.dict []) = .ok [[.str "d", .str "Fn::Split", .int 0], [.str "d", .str "Fn::Split"],
    [.str "e", .str "Fn::Base64", .str "Fn::Split"]] := by rfl
example : importRule exCalls (.dict []) = .ok [[.str "Conditions", .str "C", .str "Fn::ImportValue"]] := by rfl
example : base64Rule exCalls (.dict []) = .ok [[.str "e", .str "Fn::Base64"]] := by rfl
example : getAzRule ["us-east-1"] exCalls (.dict []) = .ok [[.str "f", .str "Fn::GetAZs"]] := by rfl
example : notRule exCalls (.dict []) = .ok [[.str "Conditions", .str "D", .str "Fn::Not"]] := by rfl

/-- the found calls satisfy the hypotheses as soon as the search says so -/
theorem found_all {fn : String} {t : Val} (hw : t.WF) {P : Val → Prop} {vs : List Val}
    (h : (searchDeepKeys fn t (.dict [])).map Prod.snd = vs) (hp : ∀ v ∈ vs, P v) : ∀ q v, At t (q ++ [.str fn]) v → P v := by
  intro q v hat
  subst h
  exact hp v (List.mem_map.2 ⟨_, ((C27_search_partial fn t hw).1 _ _).2 ⟨hat, q, rfl⟩, rfl⟩)

example : ∀ q, ¬ At exCalls (q ++ [.str "Fn::If"]) (.list []) := fun q h =>
  found_all exCalls_wf (P := fun v => v ≠ .list []) (vs := [.list [.int 1, .str "y"]]) rfl (by simp) q _ h rfl

example : ∀ q i l, At exCalls (q ++ [.str "Fn::Select"]) (.list [i, l]) → PlainIndex i := fun q i l h =>
  found_all exCalls_wf (P := fun v => ∀ i l, v = .list [i, l] → PlainIndex i)
    (vs := [.list [.str " +1_0\n", .list []], .list [.str "1__0", .dict [(.str "Fn::Sub", .str "x")]]]) rfl (by
      intro v hv i l h
      simp only [List.mem_cons, List.not_mem_nil, or_false] at hv
      rcases hv with rfl | rfl <;> cases h <;> exact .inr (.inl ⟨_, rfl⟩)) q _ h i l rfl

example : ∀ q a k x, At exCalls (q ++ [.str "Fn::Split"]) (.list [a, .dict [(k, x)]]) → SplitSource (.dict [(k, x)]) := fun q a k x h =>
  found_all exCalls_wf (P := fun v => v = .list [.int 1, .int 2] ∨ v = .int 2) (vs := [.list [.int 1, .int 2], .int 2]) rfl (by simp) q _ h |>
    fun e => by rcases e with e | e <;> cases e

example : ∀ q v, At exCalls (q ++ [.str "Fn::GetAZs"]) v → (∃ s, v = .str s) ∨ ∃ kvs, v = .dict kvs :=
  found_all exCalls_wf (vs := [.str "mars", .str "us-east-1"]) rfl (by simp)

end CfnLint
