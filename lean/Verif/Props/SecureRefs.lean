import Verif.Model.SecureRefs
import Verif.Spec.SecureRefs
import Verif.Lemmas.CheckEach
import Verif.Props.PrimType
import Verif.Props.Regex
/-
C101: references to secure parameters where they may not stand (E1027).
-/
namespace CfnLint
open Spec Rx

/-! ### Texts -/

theorem lang_rxSome {p : Char → Bool} {l : List Char} : Lang (rxSome (.set p)) l ↔ l ≠ [] ∧ ∀ c ∈ l, p c = true := by
  unfold rxSome
  rw [lang_seq]
  simp only [lang_set, lang_star_chars (fun w => lang_set)]
  constructor
  · rintro ⟨_, v, ⟨c, hc, rfl⟩, hv, rfl⟩
    refine ⟨by simp, fun x hx => ?_⟩
    rcases List.mem_cons.1 hx with rfl | hx
    · exact hc
    · exact hv x hx
  · rintro ⟨h0, h⟩
    cases l with
    | nil => exact absurd rfl h0
    | cons c l => exact ⟨[c], l, ⟨c, h c List.mem_cons_self, rfl⟩, fun x hx => h x (List.mem_cons_of_mem _ hx), rfl⟩

theorem isParamChar_iff {c : Char} : isParamChar c = true ↔ NameChar c := by
  simp [isParamChar, NameChar, or_assoc]

theorem lang_secure {digit : Char → Bool} {l : List Char} :
    Lang (regexSecure digit) l ↔ ∃ a r b, '\n' ∉ a ∧ SecureRef digit r ∧ '\n' ∉ b ∧ l = a ++ (r ++ b) := by
  have any : ∀ l, Lang (.star rxAny) l ↔ '\n' ∉ l := by
    intro l
    unfold rxAny
    simp only [lang_star_chars (fun w => lang_set), decide_eq_true_iff]
    exact ⟨fun h hm => h _ hm rfl, fun h c hc e => h (e ▸ hc)⟩
  unfold regexSecure SecureRef
  simp only [lang_seq, any, lang_word, lang_rxSome, lang_chr, isParamChar_iff]
  constructor
  · rintro ⟨a, _, ha, ⟨_, _, rfl, ⟨n, _, ⟨hn, hn'⟩, ⟨_, _, rfl, ⟨v, _, ⟨hv, hv'⟩, ⟨_, b, rfl, hb, rfl⟩, rfl⟩, rfl⟩, rfl⟩, rfl⟩, rfl⟩
    exact ⟨a, _, b, ha, ⟨n, v, hn, hn', hv, hv', rfl⟩, hb, by simp⟩
  · rintro ⟨a, _, b, ha, ⟨n, v, hn, hn', hv, hv', rfl⟩, hb, rfl⟩
    exact ⟨a, _, ha, ⟨_, _, rfl, ⟨n, _, ⟨hn, hn'⟩, ⟨_, _, rfl, ⟨v, _, ⟨hv, hv'⟩, ⟨_, b, rfl, hb, rfl⟩, rfl⟩, rfl⟩, rfl⟩, rfl⟩, by simp⟩

theorem secureRef_line {digit : Char → Bool} (hd : digit '\n' = false) {r : List Char} (h : SecureRef digit r) : '\n' ∉ r := by
  obtain ⟨n, v, -, hn, -, hv, rfl⟩ := h
  intro hm
  rcases List.mem_append.1 hm with hm | hm
  · exact absurd hm (by decide)
  rcases List.mem_append.1 hm with hm | hm
  · exact absurd (isParamChar_iff.2 (hn _ hm)) (by decide)
  rcases List.mem_cons.1 hm with hm | hm
  · cases hm
  rcases List.mem_append.1 hm with hm | hm
  · have := hv _ hm
    rw [hd] at this
    cases this
  · exact absurd hm (by decide)

/-- C101: the texts that are recognised: lines that have a reference. -/
theorem C101_text {digit : Char → Bool} (hd : digit '\n' = false) (s : String) :
    (regexSecure digit).matchesAll s = true ↔ HasSecureRef digit s ∧ IsLine s := by
  rw [matchesAll_iff]
  unfold MaybeBreak HasSecureRef IsLine
  simp only [lang_secure]
  constructor
  · rintro ⟨_, ⟨a, r, b, ha, hr, hb, rfl⟩, h⟩
    have hl : '\n' ∉ a ++ (r ++ b) := by
      simp only [List.mem_append, not_or]
      exact ⟨ha, secureRef_line hd hr, hb⟩
    refine ⟨?_, _, hl, h⟩
    rcases h with h | h
    · exact ⟨a, r, b, hr, h⟩
    · exact ⟨a, r, b ++ ['\n'], hr, by rw [h]; simp⟩
  · rintro ⟨⟨a, r, b, hr, h⟩, l, hl, h' | h'⟩
    · refine ⟨l, ?_, .inl h'⟩
      rw [h] at h'
      subst h'
      simp only [List.mem_append, not_or] at hl
      exact ⟨a, r, b, hl.1, hr, hl.2.2, rfl⟩
    · refine ⟨l, ?_, .inr h'⟩
      rw [h] at h'
      have hlast : ∃ b', b = b' ++ ['\n'] := by
        rcases List.eq_nil_or_concat b with rfl | ⟨b', c, rfl⟩
        · exfalso
          obtain ⟨n, v, -, -, -, -, rfl⟩ := hr
          have e := congrArg List.getLast? h'
          rw [show a ++ ("{{resolve:ssm-secure:".toList ++ (n ++ ':' :: (v ++ "}}".toList)) ++ []) =
            (a ++ ("{{resolve:ssm-secure:".toList ++ (n ++ ':' :: (v ++ ['}'])))) ++ ['}'] by simp,
            List.getLast?_concat, List.getLast?_concat] at e
          exact absurd e (by decide)
        · have e := congrArg List.getLast? h'
          simp at e
          subst e
          exact ⟨b', by simp⟩
      obtain ⟨b', rfl⟩ := hlast
      rw [← List.append_assoc, ← List.append_assoc] at h'
      have e := List.append_cancel_right h'
      rw [List.append_assoc] at e
      subst e
      simp only [List.mem_append, not_or] at hl
      exact ⟨a, r, b', hl.1, hr, hl.2.2, rfl⟩

/-! ### Values -/

/-- what the rule takes for a fault of a text -/
def SeenRef (digit : Char → Bool) (s : String) : Prop := HasSecureRef digit s ∧ IsLine s

theorem mem_secureCheck {digit : Char → Bool} (hd : digit '\n' = false) {v : Val} {p m : Path} :
    m ∈ secureCheck digit v p ↔ m = p ∧ ∃ s, v = .str s ∧ SeenRef digit s := by
  unfold secureCheck
  split
  · rename_i s
    unfold SeenRef
    by_cases h : (regexSecure digit).matchesAll s = true
    · rw [if_pos h]
      have := (C101_text hd s).1 h
      simp [this]
    · rw [if_neg h]
      have : ¬ (HasSecureRef digit s ∧ IsLine s) := fun hh => h ((C101_text hd s).2 hh)
      simp only [List.not_mem_nil, Val.str.injEq, false_iff, not_and, not_exists]
      rintro - _ rfl
      exact fun a b => this ⟨a, b⟩
  · rename_i h
    simp only [List.not_mem_nil, false_iff, not_and, not_exists]
    rintro - s rfl
    exact absurd rfl (h s)

theorem secureOne_finds {digit : Char → Bool} (hd : digit '\n' = false) (d : PropRow) (u : Val)
    (he : u ≠ .dict [(.str "Fn::Sub", .list [])]) (p : Path) :
    Finds (checkOne (secureChecks digit d) u p) p (TextFault (SeenRef digit) d u) := by
  by_cases hn : NoCall u
  · rw [checkOne_value _ hn]
    refine ⟨secureValue digit (decide (d.type = some "Map")) u p, rfl, fun m => ?_⟩
    unfold secureValue
    by_cases hm : d.type = some "Map"
    · rw [if_pos (by simp [hm])]
      split
      · rename_i kvs
        rw [List.mem_flatMap]
        constructor
        · rintro ⟨⟨k, w⟩, hk, h⟩
          dsimp only at h
          split at h
          · cases h
          · obtain ⟨rfl, s, rfl, hs⟩ := (mem_secureCheck hd).1 h
            exact ⟨_, rfl, .entry hm (noCall_known.1 hn) hk hs⟩
        · rintro ⟨r, rfl, h⟩
          cases h with
          | entry _ _ hk hs =>
            refine ⟨_, hk, ?_⟩
            rw [if_neg (by simp [isDictVal])]
            exact (mem_secureCheck hd).2 ⟨rfl, _, rfl, hs⟩
          | sub => exact absurd rfl (hn "Fn::Sub" _ (by decide))
          | subList => exact absurd rfl (hn "Fn::Sub" _ (by decide))
      · rename_i h
        simp only [List.not_mem_nil, false_iff, not_exists, not_and]
        rintro r - hf
        cases hf with
        | value h' => exact h' hm
        | entry => exact h _ rfl
        | sub => exact h _ rfl
        | subList => exact h _ rfl
    · rw [if_neg (by simp [hm]), mem_secureCheck hd]
      constructor
      · rintro ⟨rfl, s, rfl, hs⟩
        exact ⟨[], by simp, .value hm hs⟩
      · rintro ⟨r, rfl, h⟩
        cases h with
        | value _ hs => exact ⟨by simp, _, rfl, hs⟩
        | entry h => exact absurd h hm
        | sub => exact absurd rfl (hn "Fn::Sub" _ (by decide))
        | subList => exact absurd rfl (hn "Fn::Sub" _ (by decide))
  · obtain ⟨name, arg, hf, rfl⟩ : ∃ name arg, name ∈ functionNames ∧ u = .dict [(.str name, arg)] := by
      unfold NoCall at hn
      simpa using hn
    rw [checkOne_call _ hf]
    unfold secureChecks
    rw [named_sub hf]
    by_cases hs : name = "Fn::Sub"
    · subst hs
      rw [if_pos rfl]
      have noEntry : ∀ {kvs : List (Key × Val)} {k : Key} {s : String}, kvs = [(Key.str "Fn::Sub", arg)] → Known (.dict kvs) → False := by
        rintro kvs k s rfl hk
        exact hk "Fn::Sub" arg rfl (by decide)
      have hfault : ∀ r, TextFault (SeenRef digit) d (.dict [(.str "Fn::Sub", arg)]) r ↔
          (∃ s, arg = .str s ∧ SeenRef digit s ∧ r = [.str "Fn::Sub"]) ∨
          (∃ s xs, arg = .list (.str s :: xs) ∧ SeenRef digit s ∧ r = [.str "Fn::Sub", .int 0]) := by
        intro r
        constructor
        · intro h
          generalize hu : Val.dict [(.str "Fn::Sub", arg)] = u at h
          cases h with
          | value => cases hu
          | entry _ hk hm _ =>
            injection hu with hu
            exact (noEntry (k := .int 0) (s := "") hu.symm hk).elim
          | sub hs => injection hu with hu; simp at hu; exact .inl ⟨_, hu, hs, rfl⟩
          | subList hs => injection hu with hu; simp at hu; exact .inr ⟨_, _, hu, hs, rfl⟩
        · rintro (⟨s, rfl, hs, rfl⟩ | ⟨s, xs, rfl, hs, rfl⟩)
          · exact .sub hs
          · exact .subList hs
      show Finds (secureSub digit arg (p ++ [.str "Fn::Sub"])) p _
      unfold secureSub
      split
      · exact absurd rfl he
      · rename_i x xs
        refine ⟨_, rfl, fun m => ?_⟩
        rw [mem_secureCheck hd]
        simp only [hfault]
        constructor
        · rintro ⟨rfl, s, rfl, hs⟩
          exact ⟨_, by simp, .inr ⟨s, xs, rfl, hs, rfl⟩⟩
        · rintro ⟨r, rfl, ⟨s, e, _⟩ | ⟨s, xs', e, hs, rfl⟩⟩
          · cases e
          · cases e
            exact ⟨by simp, s, rfl, hs⟩
      · rename_i h1 h2
        refine ⟨_, rfl, fun m => ?_⟩
        rw [mem_secureCheck hd]
        simp only [hfault]
        constructor
        · rintro ⟨rfl, s, rfl, hs⟩
          exact ⟨_, rfl, .inl ⟨s, rfl, hs, rfl⟩⟩
        · rintro ⟨r, rfl, ⟨s, e, hs, rfl⟩ | ⟨s, xs', e, hs, rfl⟩⟩
          · exact ⟨rfl, s, e, hs⟩
          · exact absurd e (h2 _ _)
    · rw [if_neg hs]
      refine finds_none fun r h => ?_
      generalize hu : Val.dict [(.str name, arg)] = u at h
      cases h with
      | value => cases hu
      | entry _ hk hm _ =>
        injection hu with hu
        subst hu
        have h2 : ∀ f ∈ functionNames, f ∈ callNames := by decide +kernel
        exact hk name arg rfl (h2 name hf)
      | sub => injection hu with hu; simp at hu; exact hs hu.1
      | subList => injection hu with hu; simp at hu; exact hs hu.1

theorem takesSecure_iff {specType prop : String} : dlookup specType secureExceptions = some prop ↔ TakesSecure specType prop := by
  have hnd : (secureExceptions.map Prod.fst).Nodup := by decide +kernel
  constructor
  · intro h; exact dlookup_mem h
  · intro h; exact dlookup_of_mem hnd h

/-- C101: the findings are exactly the lines with a reference that are values of properties, entries of maps or texts of `Fn::Sub`, where the
property is none that takes references. -/
theorem C101_reports_partial {digit : Char → Bool} (hd : digit '\n' = false) {specType : String} {rows : List (String × PropRow)}
    {kvs : List (Key × Val)} {path : Path} (hrows : (rows.map Prod.fst).Nodup) (hw : (Val.dict kvs).WF)
    (hnull : ∀ prop d v, (prop, d) ∈ rows → (.str prop, v) ∈ kvs → v ≠ .none ∧ ∀ q, ¬ Leaf v q .none)
    (hsub : ∀ prop v q, (.str prop, v) ∈ kvs → ¬ PropValue v q (.dict [(.str "Fn::Sub", .list [])])) (n : Nat) :
    Finds (secureRule digit (n + 2) specType rows (.dict kvs) path) path (PropTextFault (SeenRef digit) specType rows kvs) := by
  have hnd : (kvs.map Prod.fst).Nodup := hw.1
  unfold secureRule
  obtain ⟨res, h1, h2⟩ := declaredIn_dict (rows := rows) (kvs := kvs) (f := fun prop d =>
    if dlookup specType secureExceptions = some prop then .ok []
    else
      match declaredPrim d with
      | some ty => if ty = "" then .ok [] else checkValue (n + 2) (secureChecks digit d) (.dict kvs) prop path
      | none => .ok [])
    (P := fun prop d m => ∃ ty v q u r, ¬ TakesSecure specType prop ∧ PrimOf d ty ∧ (Key.str prop, v) ∈ kvs ∧ PropValue v q u ∧
      TextFault (SeenRef digit) d u r ∧ m = path ++ (.str prop :: (q ++ r))) (by
    intro prop d v hv hl
    have hmem := dlookup_mem hl
    obtain ⟨h0, hnl⟩ := hnull prop d v hmem hv
    by_cases hx : dlookup specType secureExceptions = some prop
    · rw [if_pos hx]
      refine ⟨[], rfl, fun m => ⟨fun h => (by cases h), ?_⟩⟩
      rintro ⟨_, _, _, _, _, ht, _⟩
      exact absurd (takesSecure_iff.1 hx) ht
    rw [if_neg hx]
    have ht : ¬ TakesSecure specType prop := fun h => hx (takesSecure_iff.2 h)
    have none_of : ∀ ty, declaredPrim d ≠ some ty → ty ≠ "" → ¬ PrimOf d ty := fun ty h h0 hp => h ((declaredPrim_iff h0).2 hp)
    cases hdp : declaredPrim d with
    | none =>
      refine ⟨[], rfl, fun m => ⟨fun h => (by cases h), ?_⟩⟩
      rintro ⟨ty, _, _, _, _, _, hp, _⟩
      exact absurd hp (none_of ty (by rw [hdp]; simp) hp.1)
    | some ty =>
      by_cases he : ty = ""
      · simp only
        rw [if_pos he]
        refine ⟨[], rfl, fun m => ⟨fun h => (by cases h), ?_⟩⟩
        rintro ⟨ty', _, _, _, _, _, hp, _⟩
        exact absurd hp (none_of ty' (by rw [hdp, he]; simpa using hp.1.symm) hp.1)
      · simp only
        rw [if_neg he]
        have hp := (declaredPrim_iff he).1 hdp
        obtain ⟨l, h3, h4⟩ := checkValue_each (h := secureChecks digit d) (F := TextFault (SeenRef digit) d) (path := path)
          (dlookup_of_mem hnd hv) h0 hnl n
          (fun q u hpv p => secureOne_finds hd d u (fun e => hsub prop v q hv (e ▸ hpv)) p)
        refine ⟨l, h3, fun m => ?_⟩
        rw [h4]
        constructor
        · rintro ⟨_, rfl, q, u, r, a1, a2, rfl⟩
          exact ⟨ty, v, q, u, r, ht, hp, hv, a1, a2, rfl⟩
        · rintro ⟨ty', v', q, u, r, -, a0, a1, a2, a3, rfl⟩
          cases (dlookup_of_mem hnd hv).symm.trans (dlookup_of_mem hnd a1)
          exact ⟨_, rfl, q, u, r, a2, a3, rfl⟩)
  refine ⟨res, h1, fun m => ?_⟩
  rw [h2]
  constructor
  · rintro ⟨prop, d, v, hv, hl, ty, v', q, u, r, a0, a1, a2, a3, a4, rfl⟩
    exact ⟨_, rfl, prop, d, ty, v', q, u, r, dlookup_mem hl, a0, a1, a2, a3, a4, rfl⟩
  · rintro ⟨_, rfl, prop, d, ty, v, q, u, r, a0, a1, a2, a3, a4, a5, rfl⟩
    exact ⟨prop, d, v, a3, dlookup_of_mem hrows a0, ty, v, q, u, r, a1, a2, a3, a4, a5, rfl⟩

/-! ### What is not found -/

/-- C101, in full: every text with a reference below a property that takes none is reported. -/
def C101_statement : Prop :=
  ∀ (digit : Char → Bool) (specType : String) (rows : List (String × PropRow)) (kvs : List (Key × Val)) (path : Path) (fuel : Nat)
    (res : List Path), digit '\n' = false → (rows.map Prod.fst).Nodup → (Val.dict kvs).WF →
    secureRule digit (fuel + 2) specType rows (.dict kvs) path = .ok res →
    ∀ prop d ty v q s, (prop, d) ∈ rows → ¬ TakesSecure specType prop → PrimOf d ty → (.str prop, v) ∈ kvs → At v q (.str s) →
      HasSecureRef digit s → path ++ .str prop :: q ∈ res

def exSecure : String := "{{resolve:ssm-secure:p:1}}"

theorem exSecure_ref {a b : List Char} : HasSecureRef (fun c => c.isDigit) (String.ofList (a ++ (exSecure.toList ++ b))) :=
  ⟨a, exSecure.toList, b, ⟨['p'], ['1'], by decide, by intro c hc; simp at hc; subst hc; exact .inl (by decide), by decide, by decide, by decide⟩,
    by simp⟩

/-- C101 fails: a text of several lines is not looked at. -/
theorem C101_lines_violated : ¬ C101_statement := by
  intro h
  have := h (fun c => c.isDigit) "AWS::X" [("U", ⟨none, none, none, some "String"⟩)]
    [(.str "U", .str (String.ofList ("#!/bin/sh\n".toList ++ (exSecure.toList ++ []))))] [] 0 [] (by decide) (by decide)
    (by simp [Val.WF, Val.WFDict]) (by decide +kernel) "U" _ "String" _ [] _ List.mem_cons_self (by simp [TakesSecure]) ⟨by decide, .inl rfl⟩
    List.mem_cons_self .here exSecure_ref
  cases this

/-- C101 fails: an `Fn::Sub` in an entry of a map is not looked at. -/
theorem C101_map_violated : ¬ C101_statement := by
  intro h
  have := h (fun c => c.isDigit) "AWS::Lambda::Function.Environment" [("Variables", ⟨some "Map", none, some "String", none⟩)]
    [(.str "Variables", .dict [(.str "A", .dict [(.str "Fn::Sub", .str (String.ofList ([] ++ (exSecure.toList ++ []))))])])] [] 0 []
    (by decide) (by decide) (by simp [Val.WF, Val.WFDict]) (by decide +kernel) "Variables" _ "String" _ [.str "A", .str "Fn::Sub"] _
    List.mem_cons_self (by simp [TakesSecure]) ⟨by decide, .inr ⟨.inl rfl, rfl⟩⟩ List.mem_cons_self
    (.key List.mem_cons_self (.key List.mem_cons_self .here)) exSecure_ref
  cases this

/-- C101 fails: the parts of an `Fn::Join` are not looked at. -/
theorem C101_join_violated : ¬ C101_statement := by
  intro h
  have := h (fun c => c.isDigit) "AWS::X" [("U", ⟨none, none, none, some "String"⟩)]
    [(.str "U", .dict [(.str "Fn::Join", .list [.str "", .list [.str (String.ofList ([] ++ (exSecure.toList ++ [])))]])])] [] 0 []
    (by decide) (by decide) (by simp [Val.WF, Val.WFDict, Val.WFList]) (by decide +kernel) "U" _ "String" _
    [.str "Fn::Join", .int 1, .int 0] _ List.mem_cons_self (by simp [TakesSecure]) ⟨by decide, .inl rfl⟩ List.mem_cons_self
    (.key List.mem_cons_self (.idx (i := 1) rfl (.idx (i := 0) rfl .here))) exSecure_ref
  cases this

/-- C101: an `Fn::Sub` with an empty list makes the rule raise. -/
theorem C101_sub_raises (digit : Char → Bool) (p : Path) : secureSub digit (.list []) p = .error (.indexError "list index out of range") := rfl

/-! ### Examples -/

def exSecureRows : List (String × PropRow) :=
  [("U", ⟨none, none, none, some "String"⟩), ("V", ⟨some "Map", none, some "String", none⟩), ("L", ⟨some "List", none, some "String", none⟩)]
def exSecureProps : List (Key × Val) :=
  [(.str "U", .dict [(.str "Fn::Sub", .list [.str exSecure, .dict []])]),
   (.str "V", .dict [(.str "a", .str "x"), (.str "b", .str exSecure)]),
   (.str "L", .list [.str exSecure, .str "y"])]

example : secureRule (fun c => c.isDigit) 2 "AWS::X" exSecureRows (.dict exSecureProps) [] =
    .ok [[.str "U", .str "Fn::Sub", .int 0], [.str "V", .str "b"], [.str "L", .int 0]] := by decide +kernel
example : secureRule (fun c => c.isDigit) 2 "AWS::RDS::DBInstance" [("MasterUserPassword", ⟨none, none, none, some "String"⟩)]
    (.dict [(.str "MasterUserPassword", .str exSecure)]) [] = .ok [] := by decide +kernel

/-- the hypotheses are met -/
example : Finds (secureRule (fun c => c.isDigit) 2 "AWS::X" exSecureRows (.dict exSecureProps) []) []
    (PropTextFault (SeenRef (fun c => c.isDigit)) "AWS::X" exSecureRows exSecureProps) := by
  have l1 : ∀ {v : Val}, v ∈ exSecureProps.map Prod.snd → ∀ q u, Leaf v q u → u = v ∧ q = [] := by
    intro v hv q u h
    have : ¬ IsIf v := by
      rintro ⟨x, rfl⟩
      simp [exSecureProps] at hv
    have := (leaf_of_notIf this).1 h
    exact ⟨this.2.1, this.1⟩
  refine C101_reports_partial (by decide) (by decide) (by simp [Val.WF, Val.WFDict, Val.WFList, exSecureProps]) ?_ ?_ 0
  · intro prop d v _ hv
    have hm : v ∈ exSecureProps.map Prod.snd := List.mem_map.2 ⟨_, hv, rfl⟩
    have h0 : v ≠ .none := by
      rintro rfl
      simp [exSecureProps] at hm
    exact ⟨h0, fun q h => h0 (l1 hm q _ h).1.symm⟩
  · rintro prop v q hv ⟨q', u, hl, h⟩
    have hm : v ∈ exSecureProps.map Prod.snd := List.mem_map.2 ⟨_, hv, rfl⟩
    obtain ⟨rfl, rfl⟩ := l1 hm _ _ hl
    rcases h with ⟨_, _, rfl⟩ | ⟨xs, i, x, r, rfl, hx, hr, _⟩
    · simp [exSecureProps] at hm
    · simp [exSecureProps] at hm
      subst hm
      match i, hx with
      | 0, hx => cases hx; have := ((leaf_of_notIf (by simp [IsIf])).1 hr).2.1; cases this
      | 1, hx => cases hx; have := ((leaf_of_notIf (by simp [IsIf])).1 hr).2.1; cases this

end CfnLint
