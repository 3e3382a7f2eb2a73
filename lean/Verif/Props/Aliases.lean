import Verif.Spec.Aliases
import Verif.Props.Schedule
import Verif.Props.Regex
import Verif.Props.SecureRefs
import Verif.Props.Elb
import Verif.Props.JsonSize
/-
C113: the aliases of distributions, and essential containers.
-/
namespace CfnLint
open Spec Rx

theorem lowDigit_iff {c : Char} : lowDigit c = true ↔ LowDigit c := by simp [lowDigit, LowDigit]

theorem lowDigitDash_iff {c : Char} : lowDigitDash c = true ↔ LowDigit c ∨ c = '-' := by simp [lowDigitDash, lowDigit_iff]

theorem lang_labelEnd {l : List Char} : Lang labelEnd l ↔ ∃ m d, l = m ++ [d] ∧ m.length ≤ 61 ∧ (∀ c ∈ m, LowDigit c ∨ c = '-') ∧ LowDigit d := by
  unfold labelEnd
  simp only [lang_seq, lang_atMost, lang_set, lowDigit_iff, lowDigitDash_iff]
  constructor
  · rintro ⟨m, _, ⟨h1, h2⟩, ⟨d, hd, rfl⟩, rfl⟩
    exact ⟨m, d, rfl, h1, h2, hd⟩
  · rintro ⟨m, d, rfl, h1, h2, hd⟩
    exact ⟨m, _, ⟨h1, h2⟩, ⟨d, hd, rfl⟩, rfl⟩

theorem dash_not : ¬ LowDigit '-' := by unfold LowDigit; decide

/-- a letter or a digit with an end -/
theorem hostLabel_cons {c : Char} {r : List Char} : HostLabel (c :: r) ↔ LowDigit c ∧ (r = [] ∨ Lang labelEnd r) := by
  rw [lang_labelEnd]
  unfold HostLabel
  constructor
  · rintro ⟨-, h1, h2, h3, h4⟩
    have hc : LowDigit c := by
      rcases h2 c List.mem_cons_self with h | rfl
      · exact h
      · exact absurd rfl h3
    refine ⟨hc, ?_⟩
    rcases List.eq_nil_or_concat r with rfl | ⟨m, d, rfl⟩
    · exact .inl rfl
    · refine .inr ⟨m, d, by simp, ?_, fun x hx => h2 x (by simp [hx]), ?_⟩
      · simp at h1
        omega
      · rcases h2 d (by simp) with h | rfl
        · exact h
        · exact absurd (by rw [List.concat_eq_append, ← List.cons_append, List.getLast?_append]; rfl) h4
  · rintro ⟨hc, rfl | ⟨m, d, rfl, h1, h2, h3⟩⟩
    · refine ⟨by simp, by simp, fun x hx => ?_, ?_, ?_⟩
      · cases List.mem_singleton.1 hx
        exact .inl hc
      · intro e
        simp at e
        exact dash_not (e ▸ hc)
      · intro e
        simp at e
        exact dash_not (e ▸ hc)
    · refine ⟨by simp, by simp; omega, fun x hx => ?_, ?_, ?_⟩
      · simp only [List.mem_cons, List.mem_append, List.not_mem_nil, or_false] at hx
        rcases hx with rfl | hx | rfl
        · exact .inl hc
        · exact h2 x hx
        · exact .inl h3
      · intro e
        simp at e
        exact dash_not (e ▸ hc)
      · intro e
        rw [← List.cons_append, List.getLast?_append] at e
        simp at e
        exact dash_not (e ▸ h3)

/-- the part of the regular expression for one part of a name -/
theorem starLabel_iff {l : List Char} : StarLabel l ↔
    ∃ c r, l = c :: r ∧ (LowDigit c ∨ c = '*') ∧ (r = [] ∨ Lang labelEnd r) := by
  unfold StarLabel
  constructor
  · rintro (h | ⟨r, rfl, h⟩)
    · match l, h with
      | [], h => exact absurd rfl h.1
      | c :: r, h => exact ⟨c, r, rfl, .inl (hostLabel_cons.1 h).1, (hostLabel_cons.1 h).2⟩
    · exact ⟨'*', r, rfl, .inr rfl, (hostLabel_cons.1 h).2⟩
  · rintro ⟨c, r, rfl, h | rfl, h'⟩
    · exact .inl (hostLabel_cons.2 ⟨h, h'⟩)
    · exact .inr ⟨r, rfl, hostLabel_cons.2 ⟨by unfold LowDigit; decide, h'⟩⟩

theorem hostLabel_noDot {l : List Char} (h : HostLabel l) : '.' ∉ l := by
  intro hm
  rcases h.2.2.1 _ hm with h | h
  · revert h
    unfold LowDigit
    decide
  · cases h

theorem starLabel_noDot {l : List Char} (h : StarLabel l) : '.' ∉ l := by
  rcases h with h | ⟨r, rfl, h⟩
  · exact hostLabel_noDot h
  · intro hm
    rcases List.mem_cons.1 hm with e | hm
    · cases e
    · exact hostLabel_noDot h (List.mem_cons_of_mem _ hm)

/-- one part with the dot after it -/
theorem lang_aliasPart {l : List Char} : Lang (.seq (.set (fun c => lowDigit c || decide (c = '*'))) (.seq (opt labelEnd) (chr '.'))) l ↔
    ∃ x, StarLabel x ∧ l = x ++ ['.'] := by
  simp only [lang_seq, lang_set, lang_opt, lang_chr, starLabel_iff, Bool.or_eq_true, lowDigit_iff, decide_eq_true_iff]
  constructor
  · rintro ⟨_, _, ⟨c, hc, rfl⟩, ⟨r, _, hr, rfl, rfl⟩, rfl⟩
    exact ⟨_, ⟨c, r, rfl, hc, hr.symm⟩, by simp⟩
  · rintro ⟨_, ⟨c, r, rfl, hc, hr⟩, rfl⟩
    exact ⟨_, _, ⟨c, hc, rfl⟩, ⟨r, _, hr.symm, rfl, rfl⟩, by simp⟩

theorem lang_aliasEnd {l : List Char} : Lang (.seq (.set lowDigit) labelEnd) l ↔ HostLabel l ∧ 2 ≤ l.length := by
  simp only [lang_seq, lang_set, lowDigit_iff]
  constructor
  · rintro ⟨_, r, ⟨c, hc, rfl⟩, hr, rfl⟩
    refine ⟨hostLabel_cons.2 ⟨hc, .inr hr⟩, ?_⟩
    obtain ⟨m, d, rfl, -⟩ := lang_labelEnd.1 hr
    simp
  · rintro ⟨h, h2⟩
    match l, h, h2 with
    | c :: r, h, h2 =>
      obtain ⟨h1, rfl | h3⟩ := hostLabel_cons.1 h
      · simp at h2
      · exact ⟨[c], r, ⟨c, h1, rfl⟩, h3, rfl⟩

theorem lang_aliasParts {l : List Char} : Lang (.star (.seq (.set (fun c => lowDigit c || decide (c = '*'))) (.seq (opt labelEnd) (chr '.')))) l ↔
    ∃ xs : List (List Char), (∀ x ∈ xs, StarLabel x) ∧ l = xs.flatMap (fun x => x ++ ['.']) := by
  constructor
  · intro h
    generalize e : Rx.star (Rx.seq (.set (fun c => lowDigit c || decide (c = '*'))) (.seq (opt labelEnd) (chr '.'))) = r at h
    induction h with
    | nil => exact ⟨[], by simp, rfl⟩
    | cons h1 _ _ ih =>
      cases e
      obtain ⟨x, hx, rfl⟩ := lang_aliasPart.1 h1
      obtain ⟨xs, hxs, rfl⟩ := ih rfl
      refine ⟨x :: xs, fun y hy => ?_, by simp⟩
      rcases List.mem_cons.1 hy with rfl | hy
      · exact hx
      · exact hxs y hy
    | eps => cases e
    | set _ => cases e
    | seq _ _ => cases e
    | left _ => cases e
    | right _ => cases e
  · rintro ⟨xs, h, rfl⟩
    induction xs with
    | nil => exact lang_star.2 (.inl rfl)
    | cons x xs ih =>
      refine lang_star.2 (.inr ⟨x ++ ['.'], _, lang_aliasPart.2 ⟨x, h x List.mem_cons_self, rfl⟩, ih (fun y hy => h y (List.mem_cons_of_mem _ hy)), ?_⟩)
      simp

theorem pieces_parts {xs : List (List Char)} {last : List Char} (h : ∀ x ∈ xs, '.' ∉ x) (h' : '.' ∉ last) {l : List Char} :
    Pieces '.' l (xs ++ [last]) ↔ l = xs.flatMap (fun x => x ++ ['.']) ++ last := by
  induction xs generalizing l with
  | nil =>
    constructor
    · intro hp
      cases hp with
      | last => rfl
      | more _ hp => cases hp
    · rintro rfl
      exact .last h'
  | cons x xs ih =>
    constructor
    · intro hp
      generalize e : (x :: xs) ++ [last] = q at hp
      cases hp with
      | last => simp at e
      | more h1 hp =>
        simp only [List.cons_append, List.cons.injEq] at e
        obtain ⟨rfl, rfl⟩ := e
        rw [(ih (fun y hy => h y (List.mem_cons_of_mem _ hy))).1 hp]
        simp
    · rintro rfl
      have := (ih (fun y hy => h y (List.mem_cons_of_mem _ hy))).2 rfl
      have := Pieces.more (h x List.mem_cons_self) this
      simpa using this

/-- C113: what the regular expression of aliases takes. -/
theorem C113_domain (s : String) : aliasRx.matchesAll s = true ↔ DomainLine s := by
  rw [matchesAll_iff]
  unfold MaybeBreak DomainLine
  have hl : ∀ l, Lang aliasRx l ↔ DomainLike l := by
    intro l
    unfold aliasRx rxSome DomainLike
    rw [lang_seq]
    simp only [lang_seq (a := Rx.seq _ _) (b := Rx.star _), lang_aliasPart, lang_aliasParts, lang_aliasEnd]
    constructor
    · rintro ⟨_, last, ⟨_, _, ⟨x, hx, rfl⟩, ⟨xs, hxs, rfl⟩, rfl⟩, ⟨h1, h2⟩, rfl⟩
      have hall : ∀ y ∈ x :: xs, StarLabel y := by
        intro y hy
        rcases List.mem_cons.1 hy with rfl | hy
        · exact hx
        · exact hxs y hy
      exact ⟨x :: xs, last, (pieces_parts (fun y hy => starLabel_noDot (hall y hy)) (hostLabel_noDot h1)).2 (by simp), by simp, hall, h1, h2⟩
    · rintro ⟨xs, last, hp, hne, hall, h1, h2⟩
      rw [pieces_parts (fun y hy => starLabel_noDot (hall y hy)) (hostLabel_noDot h1)] at hp
      match xs, hne, hall, hp with
      | x :: xs, _, hall, hp =>
        exact ⟨_, last, ⟨_, _, ⟨x, hall x List.mem_cons_self, rfl⟩, ⟨xs, fun y hy => hall y (List.mem_cons_of_mem _ hy), rfl⟩, rfl⟩, ⟨h1, h2⟩, by simp [hp]⟩
  simp only [hl]

theorem formatAgain_skip (u : Bool) (b : List Char) : ∀ {l : List Char}, '{' ∉ l → '}' ∉ l → formatAgain u none (l ++ b) = formatAgain u none b
  | [], _, _ => rfl
  | c :: r, h1, h2 => by
    have hc1 : c ≠ '{' := fun e => h1 (e ▸ List.mem_cons_self)
    have hc2 : c ≠ '}' := fun e => h2 (e ▸ List.mem_cons_self)
    rw [List.cons_append, formatAgain.eq_7]
    · exact formatAgain_skip u b (fun h => h1 (List.mem_cons_of_mem _ h)) (fun h => h2 (List.mem_cons_of_mem _ h))
    all_goals first
      | (intro r' e _; exact absurd e hc1)
      | (intro r' e _; exact absurd e hc2)
      | (intro e; exact absurd e hc1)
      | (intro e; exact absurd e hc2)

theorem formatAgain_plain (u : Bool) {l : List Char} (h1 : '{' ∉ l) (h2 : '}' ∉ l) : formatAgain u none l = .ok () := by
  have := formatAgain_skip u [] h1 h2
  rw [List.append_nil] at this
  rw [this]
  simp [formatAgain]

theorem formatAgain_field (u : Bool) (acc : List Char) : ∀ {l : List Char} (b : List Char), '}' ∉ l →
    formatAgain u (some acc) (l ++ '}' :: b) = formatAgain u (some (l.reverse ++ acc)) ('}' :: b)
  | [], _, _ => rfl
  | c :: r, b, h => by
    have hc : c ≠ '}' := fun e => h (e ▸ List.mem_cons_self)
    rw [List.cons_append, formatAgain.eq_10, formatAgain_field u (c :: acc) b (fun h' => h (List.mem_cons_of_mem _ h'))]
    · simp
    · intro e
      exact absurd e hc

theorem laterStar_iff {s : String} : ['*'] ∈ (splitOn '.' s.toList).tail ↔ LaterStar s := by
  unfold LaterStar
  constructor
  · intro h
    match e : splitOn '.' s.toList, h with
    | a :: ps, h => exact ⟨a, ps, pieces_iff.2 e, h⟩
  · rintro ⟨a, ps, h, hm⟩
    rw [pieces_iff.1 h]
    exact hm

theorem mem_functionNames {s : String} : s ∈ functionNames ↔ s ∈ jsonFunctions := by
  have := functionNames_keys (.str s)
  simpa using this

/-- one alias -/
theorem aliasCheck_spec {path : Path} {s : String} (h : NoBraces s) : ∃ l, aliasCheck path (.str s) = .ok l ∧
    ∀ y, y ∈ l ↔ y.1 = path ∧ s ∉ jsonFunctions ∧ ((y.2 = .wildcard ∧ LaterStar s) ∨ (y.2 = .invalid ∧ ¬ DomainLine s)) := by
  unfold aliasCheck
  simp only [formatAgain_plain false h.1 h.2]
  by_cases h1 : s ∈ jsonFunctions
  · exact ⟨[], by rw [if_pos (mem_functionNames.2 h1)], by simp [h1]⟩
  · rw [if_neg (fun h => h1 (mem_functionNames.1 h))]
    by_cases h2 : LaterStar s
    · rw [if_pos (laterStar_iff.2 h2)]
      refine ⟨_, rfl, fun y => ?_⟩
      obtain ⟨p, f⟩ := y
      by_cases h3 : DomainLine s
      · rw [if_pos ((C113_domain s).2 h3)]
        simp [h1, h2, h3]
      · rw [if_neg (fun h => h3 ((C113_domain s).1 h))]
        simp [h1, h2, h3]
        tauto
    · rw [if_neg (fun h => h2 (laterStar_iff.1 h))]
      by_cases h3 : DomainLine s
      · exact ⟨[], by rw [if_pos ((C113_domain s).2 h3)], fun y => by simp [h2, h3]⟩
      · refine ⟨[(path, .invalid)], by rw [if_neg (fun h => h3 ((C113_domain s).1 h))], fun y => ?_⟩
        obtain ⟨p, f⟩ := y
        simp [h1, h2, h3]

/-- C113: the findings of aliases: those that are no names of domains and those with a star later than in the first part, so long as no alias has braces. -/
theorem C113_aliases (n : Nat) {t : Val} (hw : t.WF)
    (ho : ∀ name props, HasProps t "AWS::CloudFront::Distribution" name props → props.truthy = true → ∃ kvs, props = .dict kvs ∧
      ∀ v, (Key.str "DistributionConfig", v) ∈ kvs → ∃ conf, v = .dict conf ∧ ∀ a, (Key.str "Aliases", a) ∈ conf → a = .none ∨ ∃ xs, a = .list xs)
    (hb : ∀ p s, AliasAt t p s → NoBraces s) :
    ∃ l, aliasRule (n + 2) t = .ok l ∧ ∀ p f, (p, f) ∈ l ↔
      ∃ s, AliasAt t p s ∧ s ∉ jsonFunctions ∧ ((f = .wildcard ∧ LaterStar s) ∨ (f = .invalid ∧ ¬ DomainLine s)) := by
  obtain ⟨rs, h1, h2⟩ := oneKeyProps hw "AWS::CloudFront::Distribution" "DistributionConfig" n (fun name props g1 g2 => by
    obtain ⟨kvs, e, -⟩ := ho name props g1 g2
    exact ⟨kvs, e⟩)
  have one : ∀ r ∈ rs, ∃ l, aliasesOf r = .ok l ∧ ∀ y : Path × AliasFault, y ∈ l ↔ ∃ s, y.1 = r.1 ++ [.str "Aliases"] ∧
      (∃ conf xs, r.2 = .dict conf ∧ (Key.str "Aliases", Val.list xs) ∈ conf ∧ Val.str s ∈ xs) ∧
      s ∉ jsonFunctions ∧ ((y.2 = .wildcard ∧ LaterStar s) ∨ (y.2 = .invalid ∧ ¬ DomainLine s)) := by
    rintro ⟨p, w⟩ hm
    obtain ⟨name, kvs, g1, g2, rfl⟩ := (h2 p w).1 hm
    have ht : (Val.dict kvs).truthy = true := by
      cases kvs with
      | nil => cases g2
      | cons => rfl
    obtain ⟨kvs', e, g3⟩ := ho name _ g1 ht
    cases e
    obtain ⟨conf, rfl, g4⟩ := g3 w g2
    have hnd : (conf.map Prod.fst).Nodup := by
      have := at_wf (at_append (hasProps_at g1) (.key g2 .here)) hw
      rw [Val.WF] at this
      exact this.1
    unfold aliasesOf
    simp only [Val.getD]
    cases hd : dlookup (Key.str "Aliases") conf with
    | none =>
      refine ⟨[], by simp [Val.truthy], fun y => ?_⟩
      simp only [List.not_mem_nil, false_iff]
      rintro ⟨s, -, ⟨conf', xs, e, h5, -⟩, -⟩
      cases e
      rw [dlookup_of_mem hnd h5] at hd
      cases hd
    | some a =>
      have hm' := dlookup_mem hd
      rcases g4 a hm' with rfl | ⟨xs, rfl⟩
      · refine ⟨[], by simp [Val.truthy], fun y => ?_⟩
        simp only [List.not_mem_nil, false_iff]
        rintro ⟨s, -, ⟨conf', xs, e, h5, -⟩, -⟩
        cases e
        rw [dlookup_of_mem hnd h5] at hd
        cases hd
      · obtain ⟨l, h5, h6⟩ := collectM_spec (as := xs)
          (f := aliasCheck ([.str "Resources", name, .str "Properties", .str "DistributionConfig"] ++ [.str "Aliases"]))
          (P := fun x y => ∃ s, x = .str s ∧ y.1 = [.str "Resources", name, .str "Properties", .str "DistributionConfig"] ++ [.str "Aliases"] ∧
            s ∉ jsonFunctions ∧ ((y.2 = .wildcard ∧ LaterStar s) ∨ (y.2 = .invalid ∧ ¬ DomainLine s))) (by
            intro x hx
            cases x with
            | str s =>
              obtain ⟨l, h7, h8⟩ := aliasCheck_spec (path := [.str "Resources", name, .str "Properties", .str "DistributionConfig"] ++ [.str "Aliases"])
                (hb _ s ⟨name, kvs, conf, xs, g1, g2, hm', hx, rfl⟩)
              refine ⟨l, h7, fun y => ?_⟩
              rw [h8]
              simp
            | _ => exact ⟨[], rfl, by simp⟩)
        refine ⟨l, ?_, fun y => ?_⟩
        · cases xs with
          | nil => simpa [Val.truthy, collectM] using h5
          | cons x xs => simpa [Val.truthy, iterOf] using h5
        · rw [h6]
          constructor
          · rintro ⟨_, hx, s, rfl, h⟩
            exact ⟨s, h.1, ⟨conf, xs, rfl, hm', hx⟩, h.2⟩
          · rintro ⟨s, h, ⟨conf', xs', e, h7, h8⟩, h9⟩
            cases e
            rw [dlookup_of_mem hnd h7] at hd
            cases hd
            exact ⟨_, h8, s, rfl, h, h9⟩
  obtain ⟨l, h3, h4⟩ := collectM_spec one
  refine ⟨l, by simp only [aliasRule, h1, h3], fun p f => ?_⟩
  rw [h4]
  constructor
  · rintro ⟨⟨p', w⟩, hm, s, e, ⟨conf, xs, e', h5, h6⟩, h7⟩
    obtain ⟨name, kvs, g1, g2, rfl⟩ := (h2 p' w).1 hm
    simp only at e e'
    subst e e'
    exact ⟨s, ⟨name, kvs, conf, xs, g1, g2, h5, h6, rfl⟩, h7⟩
  · rintro ⟨s, ⟨name, kvs, conf, xs, g1, g2, h5, h6, rfl⟩, h7⟩
    exact ⟨_, (h2 _ _).2 ⟨name, kvs, g1, g2, rfl⟩, s, rfl, ⟨conf, xs, rfl, h5, h6⟩, h7⟩

theorem domainLine_noBrace {s : String} (h : DomainLine s) : '{' ∉ s.toList := by
  obtain ⟨l, ⟨xs, last, hp, -, hall, h1, -⟩, hs⟩ := h
  have host : ∀ {x : List Char}, HostLabel x → '{' ∉ x := by
    intro x hx hm
    rcases hx.2.2.1 _ hm with h | h
    · revert h; unfold LowDigit; decide
    · cases h
  rw [pieces_parts (fun y hy => starLabel_noDot (hall y hy)) (hostLabel_noDot h1)] at hp
  have hl : '{' ∉ l := by
    subst hp
    intro hm
    rcases List.mem_append.1 hm with hm | hm
    · obtain ⟨x, hx, hm⟩ := List.mem_flatMap.1 hm
      rcases List.mem_append.1 hm with hm | hm
      · rcases hall x hx with h | ⟨r, rfl, h⟩
        · exact host h hm
        · rcases List.mem_cons.1 hm with e | hm
          · cases e
          · exact host h (List.mem_cons_of_mem _ hm)
      · simp at hm
    · exact host h1 hm
  rcases hs with e | e
  · rw [e]; exact hl
  · rw [e]
    simp [hl]

/-- C113: an alias with a name in braces ends the rule with an error. -/
theorem C113_braces_raise {path : Path} {a n b : String} (ha : NoBraces a) (hn : NoBraces n) (hn' : n ≠ "") :
    aliasCheck path (.str (a ++ "{" ++ n ++ "}" ++ b)) = .error (.keyError n) := by
  have hs : (a ++ "{" ++ n ++ "}" ++ b).toList = a.toList ++ '{' :: (n.toList ++ '}' :: b.toList) := by simp
  have hm : '{' ∈ (a ++ "{" ++ n ++ "}" ++ b).toList := by simp
  have hf : formatAgain false none (a ++ "{" ++ n ++ "}" ++ b).toList = .error (.keyError n) := by
    rw [hs, formatAgain_skip false _ ha.1 ha.2]
    have hne : n.toList ≠ [] := fun e => hn' (by rw [← String.ofList_toList (s := n), e])
    rw [formatAgain.eq_6]
    · rw [formatAgain_field false [] b.toList hn.2, List.append_nil]
      cases hr : n.toList.reverse with
      | nil => simp at hr; exact absurd hr hn'
      | cons c r =>
        have : String.ofList (c :: r).reverse = n := by rw [← hr]; simp
        simp only [formatAgain]
        rw [this]
    · intro r e
      cases hc : n.toList with
      | nil => exact hne hc
      | cons c cs =>
        rw [hc] at e
        cases e
        exact hn.1 (by rw [hc]; exact List.mem_cons_self)
  have h1 : (a ++ "{" ++ n ++ "}" ++ b) ∉ functionNames := by
    intro h
    have : ∀ f ∈ functionNames, '{' ∉ f.toList := by decide +kernel
    exact this _ h hm
  have h2 : ¬ aliasRx.matchesAll (a ++ "{" ++ n ++ "}" ++ b) = true := fun h => domainLine_noBrace ((C113_domain _).1 h) hm
  unfold aliasCheck
  simp only
  rw [if_neg h1]
  simp only [hf]
  by_cases h3 : ['*'] ∈ (splitOn '.' (a ++ "{" ++ n ++ "}" ++ b).toList).tail
  · rw [if_pos h3]
  · rw [if_neg h3, if_neg h2]

/-- C113, aliases, in full: every alias that is no name of a domain, with a star at most for its first part, is found. -/
def C113_statement : Prop := ∀ (path : Path) (s : String), NoBraces s → ¬ AliasName s → s ∉ jsonFunctions → ∃ y l, aliasCheck path (.str s) = .ok l ∧ y ∈ l

/-- C113: a star may be the beginning of any part. -/
theorem C113_violated : ¬ C113_statement := by
  intro h
  obtain ⟨y, l, h1, h2⟩ := h [] "*a.b.com" (by unfold NoBraces; decide +kernel) (by
    rintro ⟨first, labels, last, hp, hf, -⟩
    rw [pieces_iff, show splitOn '.' "*a.b.com".toList = [['*', 'a'], ['b'], ['c', 'o', 'm']] by decide +kernel] at hp
    injection hp with e _
    subst e
    rcases hf with hf | hf
    · rcases hf.2.2.1 '*' List.mem_cons_self with h | h
      · revert h; unfold LowDigit; decide
      · cases h
    · cases hf) (by decide)
  rw [show aliasCheck [] (.str "*a.b.com") = .ok [] by decide +kernel] at h1
  cases h1
  cases h2

/-! ### containers -/

theorem isEssential_spec {kvs : List (Key × Val)} (hn : (kvs.map Prod.fst).Nodup) : ∃ b, isEssential (.dict kvs) = .ok b ∧ (b = true ↔ Essential (.dict kvs)) := by
  unfold isEssential Essential
  simp only [pyIn]
  cases h : dhas (.str "Essential") kvs with
  | false =>
    refine ⟨true, rfl, iff_of_true rfl ⟨kvs, rfl, fun v hv => ?_⟩⟩
    have := dhas_iff.2 (List.mem_map_of_mem (f := Prod.fst) hv)
    rw [h] at this
    cases this
  | true =>
    obtain ⟨⟨k, v⟩, hm, hk⟩ := List.mem_map.1 (dhas_iff.1 h)
    cases hk
    refine ⟨v.truthy, by simp [Val.subscript, dlookup_of_mem hn hm], ?_⟩
    constructor
    · intro hv
      refine ⟨kvs, rfl, fun w hw => ?_⟩
      have := dlookup_of_mem hn hm
      rw [dlookup_of_mem hn hw] at this
      cases this
      exact hv
    · rintro ⟨_, e, hv⟩
      cases e
      exact hv v hm

theorem hasEssential_spec : ∀ {cs : List Val}, (∀ c ∈ cs, ∃ kvs, c = .dict kvs ∧ (kvs.map Prod.fst).Nodup) →
    ∃ b, hasEssential cs = .ok b ∧ (b = true ↔ ∃ c ∈ cs, Essential c)
  | [], _ => ⟨false, rfl, by simp⟩
  | c :: cs, h => by
    obtain ⟨kvs, rfl, hn⟩ := h c List.mem_cons_self
    obtain ⟨b, h1, h2⟩ := isEssential_spec hn
    obtain ⟨b', h3, h4⟩ := hasEssential_spec (cs := cs) (fun x hx => h x (List.mem_cons_of_mem _ hx))
    refine ⟨b || b', by simp only [hasEssential, h1, h3], ?_⟩
    rw [Bool.or_eq_true, h2, h4]
    simp

/-- C113: a definition of a task is found exactly where no container is essential, where its containers are a list of objects. -/
theorem C113_containers (n : Nat) {t : Val} (hw : t.WF)
    (ho : ∀ name props, HasProps t "AWS::ECS::TaskDefinition" name props → props.truthy = true → ∃ kvs, props = .dict kvs ∧
      ∀ v, (Key.str "ContainerDefinitions", v) ∈ kvs → ∃ cs, v = .list cs ∧ ∀ c ∈ cs, ∃ es, c = .dict es) :
    ∃ l, essentialRule (n + 2) t = .ok l ∧ ∀ p, p ∈ l ↔ ∃ name kvs cs, HasProps t "AWS::ECS::TaskDefinition" name (.dict kvs) ∧
      (Key.str "ContainerDefinitions", Val.list cs) ∈ kvs ∧ (∀ c ∈ cs, ¬ Essential c) ∧
      p = [.str "Resources", name, .str "Properties", .str "ContainerDefinitions"] := by
  obtain ⟨rs, h1, h2⟩ := oneKeyProps hw "AWS::ECS::TaskDefinition" "ContainerDefinitions" n (fun name props g1 g2 => by
    obtain ⟨kvs, e, -⟩ := ho name props g1 g2
    exact ⟨kvs, e⟩)
  have one : ∀ r ∈ rs, ∃ l, essentialOf r = .ok l ∧ ∀ p, p ∈ l ↔ p = r.1 ∧ ∃ cs, r.2 = .list cs ∧ ∀ c ∈ cs, ¬ Essential c := by
    rintro ⟨p, w⟩ hm
    obtain ⟨name, kvs, g1, g2, rfl⟩ := (h2 p w).1 hm
    have ht : (Val.dict kvs).truthy = true := by
      cases kvs with
      | nil => cases g2
      | cons => rfl
    obtain ⟨kvs', e, g3⟩ := ho name _ g1 ht
    cases e
    obtain ⟨cs, rfl, g4⟩ := g3 w g2
    have hat : At t [.str "Resources", name, .str "Properties", .str "ContainerDefinitions"] (.list cs) := at_append (hasProps_at g1) (.key g2 .here)
    obtain ⟨b, h3, h4⟩ := hasEssential_spec (cs := cs) (fun c hc => by
      obtain ⟨es, rfl⟩ := g4 c hc
      obtain ⟨i, hi⟩ := List.getElem?_of_mem hc
      have := at_wf (at_append hat (.idx hi .here)) hw
      rw [Val.WF] at this
      exact ⟨es, rfl, this.1⟩)
    refine ⟨if b then [] else [_], by simp only [essentialOf, iterOf, h3]; cases b <;> rfl, fun p => ?_⟩
    cases b with
    | true =>
      simp only [if_pos, List.not_mem_nil, false_iff]
      rintro ⟨-, cs', e, h⟩
      cases e
      obtain ⟨c, hc, hc'⟩ := h4.1 rfl
      exact h c hc hc'
    | false =>
      simp only [Bool.false_eq_true, if_false, List.mem_singleton]
      refine ⟨fun h => ⟨h, cs, rfl, fun c hc hc' => ?_⟩, fun h => h.1⟩
      cases h4.2 ⟨c, hc, hc'⟩
  obtain ⟨l, h3, h4⟩ := collectM_spec one
  refine ⟨l, by simp only [essentialRule, h1, h3], fun p => ?_⟩
  rw [h4]
  constructor
  · rintro ⟨⟨p', w⟩, hm, rfl, cs, e, h⟩
    obtain ⟨name, kvs, g1, g2, g3⟩ := (h2 _ _).1 hm
    simp only at e
    subst e
    exact ⟨name, kvs, cs, g1, g2, h, g3⟩
  · rintro ⟨name, kvs, cs, g1, g2, h, rfl⟩
    exact ⟨_, (h2 _ _).2 ⟨name, kvs, g1, g2, rfl⟩, rfl, cs, rfl, h⟩

/-- C113, containers, in full: a definition is found if all of its containers say that they are not essential. -/
def C113_containers_statement : Prop := ∀ (n : Nat) (t : Val) (name : Key) (kvs : List (Key × Val)) (cs : List Val), t.WF →
  HasProps t "AWS::ECS::TaskDefinition" name (.dict kvs) → (Key.str "ContainerDefinitions", Val.list cs) ∈ kvs →
  (∀ c ∈ cs, ∃ es, c = .dict es ∧ ((Key.str "Essential", Val.bool false) ∈ es ∨ (Key.str "Essential", Val.str "false") ∈ es)) →
  ∃ l, essentialRule (n + 2) t = .ok l ∧ [Key.str "Resources", name, .str "Properties", .str "ContainerDefinitions"] ∈ l

/-- a task with one container -/
def exTask (essential : Val) : Val := .dict [(.str "Resources", .dict [(.str "Task", .dict [(.str "Type", .str "AWS::ECS::TaskDefinition"),
  (.str "Properties", .dict [(.str "ContainerDefinitions", .list [.dict [(.str "Name", .str "web"), (.str "Essential", essential)]])])])])]

theorem exTask_wf (b : Bool) (s : String) : (exTask (.bool b)).WF ∧ (exTask (.str s)).WF := by
  constructor <;> simp [exTask, Val.WF, Val.WFDict, Val.WFList]

theorem exTask_has (e : Val) : HasProps (exTask e) "AWS::ECS::TaskDefinition" (.str "Task") (.dict [(.str "ContainerDefinitions",
    .list [.dict [(.str "Name", .str "web"), (.str "Essential", e)]])]) :=
  ⟨_, _, .key List.mem_cons_self .here, List.mem_cons_self, List.mem_cons_self, List.mem_cons_of_mem _ List.mem_cons_self⟩

/-- C113: the text `false` is taken for true. -/
theorem C113_containers_violated : ¬ C113_containers_statement := by
  intro h
  obtain ⟨l, h1, h2⟩ := h 5 (exTask (.str "false")) (.str "Task") _ _ (exTask_wf true "false").2 (exTask_has _) List.mem_cons_self (by
    intro c hc
    cases List.mem_singleton.1 hc
    exact ⟨_, rfl, .inr (List.mem_cons_of_mem _ List.mem_cons_self)⟩)
  rw [show essentialRule (5 + 2) (exTask (.str "false")) = .ok [] by decide +kernel] at h1
  cases h1
  cases h2

/-- the hypotheses of `C113_containers` are met, and a task is found -/
example : essentialRule 7 (exTask (.bool false)) = .ok [[.str "Resources", .str "Task", .str "Properties", .str "ContainerDefinitions"]] ∧
    ∃ l, essentialRule (5 + 2) (exTask (.bool false)) = .ok l ∧ ∀ p, p ∈ l ↔ ∃ name kvs cs, HasProps (exTask (.bool false)) "AWS::ECS::TaskDefinition" name (.dict kvs) ∧
      (Key.str "ContainerDefinitions", Val.list cs) ∈ kvs ∧ (∀ c ∈ cs, ¬ Essential c) ∧
      p = [.str "Resources", name, .str "Properties", .str "ContainerDefinitions"] := by
  refine ⟨by decide +kernel, C113_containers 5 (exTask_wf false "").1 fun name props h _ => ?_⟩
  obtain ⟨rs, r, h1, h2, h3, h4⟩ := h
  cases at_det (exTask_wf false "").1 (.key List.mem_cons_self .here) h1
  simp at h2
  obtain ⟨rfl, rfl⟩ := h2
  simp at h4
  subst h4
  refine ⟨_, rfl, fun v hv => ?_⟩
  simp at hv
  subst hv
  refine ⟨_, rfl, fun c hc => ?_⟩
  simp at hc
  exact ⟨_, hc⟩

/-- a distribution with two aliases -/
def exAliases : Val := .dict [(.str "Resources", .dict [(.str "Site", .dict [(.str "Type", .str "AWS::CloudFront::Distribution"),
  (.str "Properties", .dict [(.str "DistributionConfig", .dict [(.str "Aliases", .list [.str "www.example.com", .str "a.*.com"])])])])])]

/-- the hypotheses of `C113_aliases` are met, and an alias is found -/
example : ∃ l, aliasRule (5 + 2) exAliases = .ok l ∧ ([Key.str "Resources", .str "Site", .str "Properties", .str "DistributionConfig", .str "Aliases"], AliasFault.wildcard) ∈ l := by
  have hw : exAliases.WF := by simp [exAliases, Val.WF, Val.WFDict, Val.WFList]
  have hat : HasProps exAliases "AWS::CloudFront::Distribution" (.str "Site") (.dict [(.str "DistributionConfig",
      .dict [(.str "Aliases", .list [.str "www.example.com", .str "a.*.com"])])]) :=
    ⟨_, _, .key List.mem_cons_self .here, List.mem_cons_self, List.mem_cons_self, List.mem_cons_of_mem _ List.mem_cons_self⟩
  have only : ∀ name props, HasProps exAliases "AWS::CloudFront::Distribution" name props → props = (.dict [(.str "DistributionConfig",
      .dict [(.str "Aliases", .list [.str "www.example.com", .str "a.*.com"])])]) := by
    rintro name props ⟨rs, r, h1, h2, h3, h4⟩
    cases at_det hw (.key List.mem_cons_self .here) h1
    simp at h2
    obtain ⟨rfl, rfl⟩ := h2
    simp at h4
    exact h4
  obtain ⟨l, h1, h2⟩ := C113_aliases 5 hw (fun name props h _ => by
    cases only name props h
    refine ⟨_, rfl, fun v hv => ?_⟩
    simp at hv
    subst hv
    refine ⟨_, rfl, fun a ha => ?_⟩
    simp at ha
    exact .inr ⟨_, ha⟩) (by
    rintro p s ⟨name, kvs, conf, xs, h1, h2, h3, h4, -⟩
    cases only _ _ h1
    simp at h2
    subst h2
    simp at h3
    subst h3
    simp at h4
    rcases h4 with rfl | rfl <;> unfold NoBraces <;> decide +kernel)
  refine ⟨l, h1, (h2 _ _).2 ⟨"a.*.com", ⟨_, _, _, _, hat, List.mem_cons_self, List.mem_cons_self, by simp, rfl⟩, by decide, .inl ⟨rfl, ?_⟩⟩⟩
  exact laterStar_iff.1 (by decide +kernel)

/-- the hypotheses of `C113_braces_raise` are met -/
example : NoBraces "www." ∧ NoBraces "Name" := by unfold NoBraces; decide +kernel

/-! ### the second format -/

theorem formatAgain_named (u : Bool) : ∀ (l acc : List Char), acc ≠ [] → formatAgain u (some acc) l ≠ .ok ()
  | [], acc, _ => by rw [formatAgain]; simp
  | c :: r, acc, h => by
    by_cases hc : c = '}'
    · subst hc
      rw [formatAgain]
      · simp
      · exact h
    · rw [formatAgain.eq_10]
      · exact formatAgain_named u r (c :: acc) (by simp)
      · exact hc

theorem formatAgain_opened (u : Bool) (l : List Char) : formatAgain u (some []) l = .ok () ↔ ∃ r, l = '}' :: r ∧ u = false ∧ formatAgain true none r = .ok () := by
  cases l with
  | nil => rw [formatAgain]; simp
  | cons c r =>
    by_cases hc : c = '}'
    · subst hc
      rw [formatAgain]
      cases u <;> simp
    · rw [formatAgain.eq_10]
      · simp [formatAgain_named u r [c] (by simp), hc]
      · exact hc

theorem formats_iff : ∀ (n : Nat) (l : List Char) (u : Bool), l.length ≤ n → (formatAgain u none l = .ok () ↔ Formats (if u then 0 else 1) l)
  | _, [], u, _ => by
    rw [formatAgain]
    simp only [true_iff]
    exact .nil
  | 0, c :: r, _, h => by simp at h
  | n + 1, c :: r, u, h => by
    have hr : r.length ≤ n := by simpa using h
    by_cases h1 : c = '{'
    · subst h1
      by_cases h2 : ∃ r', r = '{' :: r'
      · obtain ⟨r', rfl⟩ := h2
        rw [formatAgain, formats_iff n r' u (by simp at hr; omega)]
        constructor
        · exact .open
        · intro hf
          generalize hk : (if u then 0 else 1) = k at hf ⊢
          cases hf with
          | plain h3 => exact absurd rfl h3
          | «open» hf => exact hf
      · rw [formatAgain.eq_6 _ _ (fun r' e => h2 ⟨r', e⟩), formatAgain_opened]
        constructor
        · rintro ⟨r', rfl, rfl, h3⟩
          rw [formats_iff n r' true (by simp at hr; omega)] at h3
          exact .field h3
        · intro hf
          generalize hk : (if u then 0 else 1) = k at hf
          cases hf with
          | plain h3 => exact absurd rfl h3
          | «open» hf => exact absurd ⟨_, rfl⟩ h2
          | @field m r' hf =>
            cases u with
            | true => simp at hk
            | false =>
              have : m = 0 := by simpa using hk.symm
              subst this
              exact ⟨r', rfl, rfl, (formats_iff n r' true (by simp at hr; omega)).2 hf⟩
    · by_cases h2 : c = '}'
      · subst h2
        by_cases h3 : ∃ r', r = '}' :: r'
        · obtain ⟨r', rfl⟩ := h3
          rw [formatAgain, formats_iff n r' u (by simp at hr; omega)]
          constructor
          · exact .close
          · intro hf
            generalize hk : (if u then 0 else 1) = k at hf ⊢
            cases hf with
            | plain _ h3 => exact absurd rfl h3
            | close hf => exact hf
        · rw [formatAgain.eq_5 _ _ (fun r' e => h3 ⟨r', e⟩)]
          constructor
          · intro e
            cases e
          · intro hf
            generalize hk : (if u then 0 else 1) = k at hf ⊢
            cases hf with
            | plain _ h4 => exact absurd rfl h4
            | close hf => exact absurd ⟨_, rfl⟩ h3
      · rw [formatAgain.eq_7 _ _ _ (fun r' e => absurd e h1) (fun r' e => absurd e h2) h2 h1, formats_iff n r u hr]
        constructor
        · exact .plain h1 h2
        · intro hf
          generalize hk : (if u then 0 else 1) = k at hf ⊢
          cases hf with
          | plain _ _ hf => exact hf
          | «open» hf => exact absurd rfl h1
          | close hf => exact absurd rfl h2
          | field hf => exact absurd rfl h1

/-- C113: an alias that is to be reported is reported exactly where it can be formatted again with one argument; else the rule ends with an error. -/
theorem C113_format (path : Path) (s : String) (h1 : s ∉ functionNames) (h2 : ¬ aliasRx.matchesAll s = true) :
    (Formats 1 s.toList ∧ ∃ l, aliasCheck path (.str s) = .ok l ∧ (path, .invalid) ∈ l) ∨ (¬ Formats 1 s.toList ∧ ∃ e, aliasCheck path (.str s) = .error e) := by
  have hf := formats_iff s.toList.length s.toList false (Nat.le_refl _)
  simp only [Bool.false_eq_true, if_false] at hf
  rw [← hf]
  unfold aliasCheck
  simp only [if_neg h1, if_neg h2]
  cases hc : formatAgain false none s.toList with
  | error e =>
    refine .inr ⟨by simp, ?_⟩
    dsimp only
    split <;> exact ⟨e, rfl⟩
  | ok x =>
    refine .inl ⟨rfl, ?_⟩
    dsimp only
    split <;> exact ⟨_, rfl, by simp⟩

example : Formats 1 "a{}b".toList ∧ ¬ Formats 1 "{}{}".toList := by
  refine ⟨.plain (by decide) (by decide) (.field (.plain (by decide) (by decide) .nil)), fun h => ?_⟩
  have := (formats_iff 4 "{}{}".toList false (by decide)).2 h
  revert this
  decide

end CfnLint
