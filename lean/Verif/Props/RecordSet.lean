import Verif.Model.RecordSet
import Verif.Spec.RecordSet
import Verif.Props.Regex
import Verif.Props.ResProps
import Verif.Lemmas.Split
import Verif.Props.FnShape
import Verif.Lemmas.CheckOnly
/- Properties of the rule on the records of a domain (C77). -/
namespace CfnLint
open Spec

theorem cutAt_some {c : Char} : ∀ {l a b : List Char}, cutAt c l = some (a, b) ↔ l = a ++ c :: b ∧ c ∉ a
  | [], a, b => by
    simp only [cutAt, reduceCtorEq, false_iff]
    rintro ⟨h, -⟩
    cases a <;> cases h
  | x :: xs, a, b => by
    rw [cutAt]
    by_cases hx : x = c
    · rw [if_pos hx]
      subst hx
      constructor
      · intro h
        cases h
        exact ⟨rfl, by simp⟩
      · rintro ⟨h, h'⟩
        cases a with
        | nil => cases h; rfl
        | cons y ys =>
          cases h
          exact absurd List.mem_cons_self h'
    · rw [if_neg hx]
      simp only [Option.map_eq_some_iff, Prod.mk.injEq, Prod.exists]
      constructor
      · rintro ⟨a', b', h, rfl, rfl⟩
        obtain ⟨rfl, h2⟩ := cutAt_some.1 h
        exact ⟨rfl, fun h => (List.mem_cons.1 h).elim (fun e => hx e.symm) h2⟩
      · rintro ⟨h, h'⟩
        cases a with
        | nil => cases h; exact absurd rfl hx
        | cons y ys =>
          cases h
          exact ⟨ys, b, cutAt_some.2 ⟨rfl, fun h => h' (List.mem_cons_of_mem _ h)⟩, rfl, rfl⟩

theorem cutAt_none {c : Char} {l : List Char} : cutAt c l = none ↔ ∀ a b, l = a ++ c :: b → c ∈ a := by
  constructor
  · intro h a b e
    by_cases hc : c ∈ a
    · exact hc
    · rw [cutAt_some.2 ⟨e, hc⟩] at h
      cases h
  · intro h
    cases hl : cutAt c l with
    | none => rfl
    | some ab =>
      obtain ⟨a, b⟩ := ab
      have := cutAt_some.1 hl
      exact absurd (h a b this.1) this.2

theorem isDigits_iff {l : List Char} : isDigits l = true ↔ DigitText l := by
  unfold isDigits DigitText
  simp only [Bool.and_eq_true, Bool.not_eq_true', List.isEmpty_eq_false_iff, List.all_eq_true, isDigit_iff]

theorem pyDigits_value : ∀ {l : List Char} {n : Nat}, (∀ c ∈ l, '0' ≤ c ∧ c ≤ '9') →
    pyDigits (some n) l = some (l.foldl (fun n c => 10 * n + (c.toNat - 48)) n)
  | [], n, _ => by simp [pyDigits]
  | c :: cs, n, h => by
    have hc := h c List.mem_cons_self
    have hd : c.isDigit = true := (isDigit_iff _).2 hc
    have hu : c ≠ '_' := by
      rintro rfl
      exact absurd hc.2 (by decide)
    rw [pyDigits, if_pos hd]
    · rw [Option.getD_some, pyDigits_value fun d hd => h d (List.mem_cons_of_mem _ hd), List.foldl_cons]
    · intro c' cs' h _
      exact hu h

theorem pyDigits_digits {l : List Char} (h : DigitText l) : pyDigits none l = some (digitsValue l) := by
  obtain ⟨h1, h2⟩ := h
  cases l with
  | nil => exact absurd rfl h1
  | cons c cs =>
    have hc := h2 c List.mem_cons_self
    have hd : c.isDigit = true := (isDigit_iff _).2 hc
    have hu : c ≠ '_' := by
      rintro rfl
      exact absurd hc.2 (by decide)
    rw [pyDigits, if_pos hd]
    · rw [pyDigits_value fun d hd => h2 d (List.mem_cons_of_mem _ hd)]
      rfl
    · intro c' cs' h _
      exact hu h

theorem not_text_ite {p q : Path} {b : Bool} : q ∈ (if b = true then [] else [p]) ↔ b ≠ true ∧ q = p := by
  cases b <;> simp

theorem append_cons_unique {c : Char} {a b a' b' : List Char} (ha : c ∉ a) (ha' : c ∉ a') (h : a ++ c :: b = a' ++ c :: b') : a = a' ∧ b = b' := by
  have h1 := (cutAt_some (l := a ++ c :: b) (b := b)).2 ⟨rfl, ha⟩
  have h2 := (cutAt_some (l := a' ++ c :: b') (b := b')).2 ⟨rfl, ha'⟩
  rw [h, h2] at h1
  cases h1
  exact ⟨rfl, rfl⟩

/-- (C77) a CAA record is reported exactly if it is not a flag, a tag and a value -/
theorem C77_caa (s : String) (p : Path) : ∃ l, checkCaa (.str s) p = .ok l ∧ ∀ q, q ∈ l ↔ ¬ CaaText s ∧ q = p := by
  unfold checkCaa
  simp only
  cases h1 : cutAt ' ' s.toList with
  | none =>
    refine ⟨_, rfl, fun q => ?_⟩
    have : ¬ CaaText s := by
      rintro ⟨f, t, v, e, hf, -⟩
      exact hf (cutAt_none.1 h1 _ _ e)
    simp [this]
  | some fr =>
    obtain ⟨f, r⟩ := fr
    obtain ⟨e1, hf⟩ := cutAt_some.1 h1
    simp only
    cases h2 : cutAt ' ' r with
    | none =>
      refine ⟨_, rfl, fun q => ?_⟩
      have : ¬ CaaText s := by
        rintro ⟨f', t, v, e, hf', ht, -⟩
        rw [e1] at e
        obtain ⟨rfl, e2⟩ := append_cons_unique hf hf' e
        exact ht (cutAt_none.1 h2 _ _ e2)
      simp [this]
    | some tv =>
      obtain ⟨t, v⟩ := tv
      obtain ⟨rfl, ht⟩ := cutAt_some.1 h2
      refine ⟨_, rfl, fun q => ?_⟩
      have hc : CaaText s ↔ (DigitText f ∧ (digitsValue f = 0 ∨ digitsValue f = 128)) ∧ MaybeBreak Alnum (String.ofList t) ∧
          (v.head? = some '"' ∧ v.getLast? = some '"') := by
        constructor
        · rintro ⟨f', t', v', e, hf', ht', a1, a2, a3, a4, a5⟩
          rw [e1] at e
          obtain ⟨rfl, e2⟩ := append_cons_unique hf hf' e
          obtain ⟨rfl, rfl⟩ := append_cons_unique ht ht' e2
          exact ⟨⟨a1, a2⟩, a3, a4, a5⟩
        · rintro ⟨⟨a1, a2⟩, a3, a4, a5⟩
          exact ⟨f, t, v, e1, hf, ht, a1, a2, a3, a4, a5⟩
      rw [hc, ← C74_alphanumeric, show regexAlphanumeric.matchesAll (String.ofList t) = regexAlphanumeric.matchesPart t from rfl, ← isDigits_iff]
      simp only [List.mem_append]
      by_cases hd : isDigits f = true
      · rw [pyDigits_digits (isDigits_iff.1 hd)]
        simp only [hd, if_true, Option.some.injEq, true_and]
        by_cases k1 : digitsValue f = 0 ∨ digitsValue f = 128 <;> by_cases k2 : regexAlphanumeric.matchesPart t = true <;>
          by_cases k3 : v.head? = some '"' ∧ v.getLast? = some '"' <;> simp [k1, k2, k3]
      · by_cases k2 : regexAlphanumeric.matchesPart t = true <;>
          by_cases k3 : v.head? = some '"' ∧ v.getLast? = some '"' <;> simp [hd, k2, k3]

theorem splitOn_two {c : Char} {l a b : List Char} : splitOn c l = [a, b] ↔ l = a ++ c :: b ∧ c ∉ a ∧ c ∉ b := by
  constructor
  · intro h
    cases hl : cutAt c l with
    | none =>
      have : c ∉ l := by
        intro hm
        obtain ⟨x, y, rfl, hx⟩ := List.eq_append_cons_of_mem hm
        exact hx (cutAt_none.1 hl _ _ rfl)
      rw [splitOn_plain this] at h
      cases h
    | some xy =>
      obtain ⟨x, y⟩ := xy
      obtain ⟨rfl, hx⟩ := cutAt_some.1 hl
      rw [splitOn_append _ hx] at h
      cases h2 : cutAt c y with
      | none =>
        have hy : c ∉ y := by
          intro hm
          obtain ⟨x', y', rfl, hx'⟩ := List.eq_append_cons_of_mem hm
          exact hx' (cutAt_none.1 h2 _ _ rfl)
        rw [splitOn_plain hy] at h
        cases h
        exact ⟨rfl, hx, hy⟩
      | some uv =>
        obtain ⟨u, v⟩ := uv
        obtain ⟨rfl, hu⟩ := cutAt_some.1 h2
        rw [splitOn_append _ hu] at h
        have := splitOn_ne_nil c v
        cases hv : splitOn c v with
        | nil => exact absurd hv this
        | cons _ _ => rw [hv] at h; cases h
  · rintro ⟨rfl, ha, hb⟩
    rw [splitOn_append _ ha, splitOn_plain hb]

theorem digits_noSpace {l : List Char} (h : DigitText l) : ' ' ∉ l := fun hm => absurd (h.2 _ hm).1 (by decide)

/-- (C77) an MX record is reported exactly if it is not a priority and a name, unless only the name is wrong -/
theorem C77_mx_partial {s : String}
    (h : ¬ ∃ f d, s.toList = f ++ ' ' :: d ∧ ' ' ∉ d ∧ Priority f ∧ ¬ MaybeBreak DomainText (String.ofList d)) (p : Path) :
    ∃ l, checkMx (.str s) p = .ok l ∧ ∀ q, q ∈ l ↔ ¬ MxText s ∧ q = p := by
  unfold checkMx
  simp only
  split
  · rename_i f d hs
    obtain ⟨e, hf, hd⟩ := splitOn_two.1 hs
    have hm : MxText s ↔ Priority f ∧ MaybeBreak DomainText (String.ofList d) := by
      constructor
      · rintro ⟨f', d', e', hd', h1, h2⟩
        rw [e] at e'
        obtain ⟨rfl, rfl⟩ := append_cons_unique hf (digits_noSpace h1.1) e'
        exact ⟨h1, h2⟩
      · rintro ⟨h1, h2⟩
        exact ⟨f, d, e, hd, h1, h2⟩
    have hp : (isDigits f = true ∧ (pyDigits none f).getD 0 ≤ 65535) ↔ Priority f := by
      unfold Priority
      rw [isDigits_iff]
      refine and_congr_right fun h => ?_
      rw [pyDigits_digits h, Option.getD_some]
    have hdom : regexDomain.matchesPart d = true ↔ MaybeBreak DomainText (String.ofList d) := C74_domain _
    rw [hm]
    by_cases h1 : Priority f
    · rw [if_pos (hp.2 h1)]
      have h2 : MaybeBreak DomainText (String.ofList d) := by
        by_contra h2
        exact h ⟨f, d, e, hd, h1, h2⟩
      rw [if_pos (hdom.2 h2)]
      exact ⟨_, rfl, fun q => by simp [h1, h2]⟩
    · rw [if_neg (fun h => h1 (hp.1 h))]
      refine ⟨_, rfl, fun q => ?_⟩
      by_cases h2 : regexDomain.matchesPart d = true <;> simp [h1, h2]
  · rename_i hs
    have : ¬ MxText s := by
      rintro ⟨f, d, e, hd, h1, -⟩
      exact hs f d (splitOn_two.2 ⟨e, digits_noSpace h1.1, hd⟩)
    exact ⟨_, rfl, fun q => by simp [this]⟩

/-- (C77) an MX record whose priority is good and whose name is bad makes the rule fail instead of being reported -/
theorem C77_mx_raises {s : String} {f d : List Char} (e : s.toList = f ++ ' ' :: d) (hd : ' ' ∉ d) (hf : Priority f)
    (hn : ¬ MaybeBreak DomainText (String.ofList d)) (p : Path) : checkMx (.str s) p = .error (.other "UnboundLocalError") := by
  unfold checkMx
  simp only
  rw [splitOn_two.2 ⟨e, digits_noSpace hf.1, hd⟩]
  simp only
  rw [if_pos ⟨isDigits_iff.2 hf.1, by rw [pyDigits_digits hf.1]; exact hf.2⟩, if_neg (show ¬ regexDomain.matchesPart d = true from fun h => hn ((C74_domain _).1 h))]

/-- (C77) the statement for MX records -/
def C77_mx_statement : Prop := ∀ (s : String) (p : Path), ∃ l, checkMx (.str s) p = .ok l ∧ ∀ q, q ∈ l ↔ ¬ MxText s ∧ q = p

theorem C77_mx_violated : ¬ C77_mx_statement := by
  intro h
  obtain ⟨l, hl, -⟩ := h "10 " []
  rw [C77_mx_raises (s := "10 ") (f := ['1', '0']) (d := []) (by decide +kernel) (by decide) ⟨⟨by decide, by decide⟩, by decide⟩ (by
    rintro ⟨l, ⟨h1, h2⟩, h3 | h3⟩
    · exact h1 h3.symm
    · cases l <;> cases h3)] at hl
  cases hl


theorem recordText_iff {v6 : String → Prop} {ty s : String} : RecordText v6 ty s ↔
    (ty = "A" ∧ MaybeBreak LooseIpv4 s) ∨ (ty = "AAAA" ∧ v6 s) ∨ (ty = "CAA" ∧ CaaText s) ∨ (ty = "CNAME" ∧ MaybeBreak DomainText s) ∨
    (ty = "CNAME" ∧ MaybeBreak ValidationText s) ∨ (ty = "MX" ∧ MxText s) ∨ (ty = "NS" ∧ MaybeBreak DomainText s) ∨
    (ty = "PTR" ∧ MaybeBreak DomainText s) ∨ (ty = "TXT" ∧ MaybeBreak TxtText s) := by
  constructor
  · intro h
    cases h <;> simp [*]
  · rintro (⟨rfl, h⟩ | ⟨rfl, h⟩ | ⟨rfl, h⟩ | ⟨rfl, h⟩ | ⟨rfl, h⟩ | ⟨rfl, h⟩ | ⟨rfl, h⟩ | ⟨rfl, h⟩ | ⟨rfl, h⟩)
    · exact .a h
    · exact .aaaa h
    · exact .caa h
    · exact .cname h
    · exact .validation h
    · exact .mx h
    · exact .ns h
    · exact .ptr h
    · exact .txt h

theorem checkRecord_text {ok : String → Bool} {P : Prop} {s : String} (h : ok s = true ↔ P) (p : Path) :
    ∃ l, checkRecord ok (.str s) p = .ok l ∧ ∀ q, q ∈ l ↔ ¬ P ∧ q = p := by
  refine ⟨_, rfl, fun q => ?_⟩
  rw [not_text_ite, Ne, h]

/-- (C77) a text is reported exactly if it is no record of the type, unless it is an MX record with nothing wrong but the name -/
theorem C77_record_partial (v6 : String → Bool) {ty s : String} (hty : ty ∈ recordTypes) (hmx : ty = "MX" → ¬ OnlyNameBad s) (p : Path) :
    ∃ check l, recordCheck v6 ty = some check ∧ check (.str s) p = .ok l ∧
      ∀ q, q ∈ l ↔ ¬ RecordText (fun s => v6 s = true) ty s ∧ q = p := by
  simp only [recordTypes, List.mem_cons, List.not_mem_nil, or_false] at hty
  simp only [recordText_iff]
  rcases hty with rfl | rfl | rfl | rfl | rfl | rfl | rfl | rfl
  · obtain ⟨l, h1, h2⟩ := checkRecord_text (C74_ipv4_exact s) p
    exact ⟨_, l, rfl, h1, fun q => by rw [h2]; simp⟩
  · obtain ⟨l, h1, h2⟩ := checkRecord_text (ok := v6) (s := s) Iff.rfl p
    exact ⟨_, l, rfl, h1, fun q => by rw [h2]; simp⟩
  · obtain ⟨l, h1, h2⟩ := C77_caa s p
    exact ⟨_, l, rfl, h1, fun q => by rw [h2]; simp⟩
  · refine ⟨_, _, rfl, rfl, fun q => ?_⟩
    rw [not_text_ite, Ne, Bool.or_eq_true, C74_domain, C74_validations]
    simp
  · obtain ⟨l, h1, h2⟩ := C77_mx_partial (hmx rfl) p
    exact ⟨_, l, rfl, h1, fun q => by rw [h2]; simp⟩
  · obtain ⟨l, h1, h2⟩ := checkRecord_text (C74_domain s) p
    exact ⟨_, l, rfl, h1, fun q => by rw [h2]; simp⟩
  · obtain ⟨l, h1, h2⟩ := checkRecord_text (C74_domain s) p
    exact ⟨_, l, rfl, h1, fun q => by rw [h2]; simp⟩
  · refine ⟨_, _, rfl, rfl, fun q => ?_⟩
    rw [not_text_ite, Ne, C74_txt]
    simp

theorem recordCheck_object (v6 : String → Bool) {ty : String} {check : Val → Path → PyM (List Path)} (h : recordCheck v6 ty = some check)
    (fs : List (Key × Val)) (p : Path) : check (.dict fs) p = .ok [] := by
  unfold recordCheck at h
  split at h <;> first | (cases h; rfl) | cases h

theorem recordCheck_some {v6 : String → Bool} {ty : String} {check : Val → Path → PyM (List Path)} (h : recordCheck v6 ty = some check) :
    ty ∈ recordTypes := by
  unfold recordCheck at h
  split at h <;> first | decide | cases h

/-- (C77) a CNAME or TXT record that is no text and no object stops the linter -/
theorem C77_record_raises (v6 : String → Bool) {ty : String} (hty : ty = "CNAME" ∨ ty = "TXT") {u : Val} (hs : ∀ s, u ≠ .str s)
    (hd : ∀ fs, u ≠ .dict fs) (p : Path) :
    ∃ check, recordCheck v6 ty = some check ∧ check u p = .error (.typeError "expected string or bytes-like object") := by
  rcases hty with rfl | rfl
  · refine ⟨_, rfl, ?_⟩
    show checkCname u p = .error _
    cases u with
    | str s => exact absurd rfl (hs s)
    | dict fs => exact absurd rfl (hd fs)
    | _ => rfl
  · refine ⟨_, rfl, ?_⟩
    show checkTxt u p = .error _
    cases u with
    | str s => exact absurd rfl (hs s)
    | dict fs => exact absurd rfl (hd fs)
    | _ => rfl

theorem leaf_list {xs : List Val} {q : Path} {u : Val} (h : Leaf (.list xs) q u) : q = [] ∧ u = .list xs := by
  obtain ⟨h1, h2, -⟩ := (leaf_of_notIf (by rintro ⟨c, a, b, e⟩)).1 h
  exact ⟨h1, h2⟩

/-- (C77) a record set is checked exactly, when no conditions are involved in it -/
theorem C77_recordset_partial (v6 : String → Bool) {below : Path → PyM (List Scenario)} {path : Path} {rs : Val} (hw : rs.WF)
    (hp : PlainRecord rs) (hb : below (path ++ [.str "ResourceRecords"]) = .ok []) (n : Nat) :
    ∃ res, checkRecordset v6 below (n + 2) path rs = .ok res ∧ ∀ p, p ∈ res ↔ BadRecord (fun s => v6 s = true) path rs p := by
  obtain ⟨kv, kvs, rfl, halias, hrr⟩ := hp
  rw [Val.WF] at hw
  have hnd := hw.1
  have none : (¬ ∃ p, BadRecord (fun s => v6 s = true) path (.dict (kv :: kvs)) p) →
      ∃ res, Except.ok (ε := PyErr) ([] : List Path) = .ok res ∧ ∀ p, p ∈ res ↔ BadRecord (fun s => v6 s = true) path (.dict (kv :: kvs)) p :=
    fun h => ⟨[], rfl, fun p => ⟨fun hm => (by cases hm), fun hm => absurd ⟨p, hm⟩ h⟩⟩
  unfold checkRecordset
  simp only
  split
  · rename_i h
    refine none ?_
    rintro ⟨p, _, ty, v, e, h1, -⟩
    cases e
    rw [dlookup_of_mem hnd h1] at h
    cases h
  split
  · rename_i h
    refine none ?_
    rintro ⟨p, _, ty, v, e, -, -, h1, -⟩
    cases e
    cases hl : dlookup (Key.str "AliasTarget") (kv :: kvs) with
    | none => rw [hl] at h; cases h
    | some a => exact h1 a (dlookup_mem hl)
  rename_i hal
  have hal' : ∀ a, (Key.str "AliasTarget", a) ∉ kv :: kvs := by
    intro a ha
    obtain ⟨b, bs, rfl⟩ := halias a ha
    rw [dlookup_of_mem hnd ha] at hal
    exact hal rfl
  cases hv : dlookup (Key.str "ResourceRecords") (kv :: kvs) with
  | none =>
    rw [if_pos (by rfl)]
    refine none ?_
    rintro ⟨p, _, ty, v, e, -, -, -, h1, -⟩
    cases e
    rw [dlookup_of_mem hnd h1] at hv
    cases hv
  | some v =>
  obtain ⟨⟨xs, rfl⟩, hval⟩ := hrr v (dlookup_mem hv)
  have leafs : ∀ q u, Leaf (.list xs) q u → u = .list xs := fun q u h => (leaf_list h).2
  cases xs with
  | nil =>
    rw [if_pos (by rfl)]
    refine none ?_
    rintro ⟨p, _, ty, v, e, -, -, -, h1, h2⟩
    cases e
    rw [dlookup_of_mem hnd h1] at hv
    cases hv
    rcases h2 with ⟨q, s, ⟨q', u, h3, h4⟩, -⟩ | ⟨-, x, y, xs, h3, -⟩
    · cases leafs _ _ h3
      rcases h4 with ⟨h4, -⟩ | ⟨ys, i, x, r, h4, h5, -⟩
      · exact h4 _ rfl
      · cases h4
        simp at h5
    · cases h3
  | cons x xs =>
  rw [if_neg (show ¬ (!((some (Val.list (x :: xs))).getD Val.none).truthy) = true from (by intro h; cases h))]
  split
  · rename_i ty hty
    have hmt := dlookup_mem hty
    have fix : ∀ p, BadRecord (fun s => v6 s = true) path (.dict (kv :: kvs)) p ↔ ty ∈ recordTypes ∧
        ((∃ q s, PropValue (.list (x :: xs)) q (.str s) ∧ ¬ RecordText (fun s => v6 s = true) ty s ∧ p = path ++ .str "ResourceRecords" :: q) ∨
         (ty = "CNAME" ∧ xs ≠ [] ∧ p = path ++ [.str "ResourceRecords"])) := by
      intro p
      constructor
      · rintro ⟨_, ty', v', e, h1, h2, -, h3, h4⟩
        cases e
        rw [dlookup_of_mem hnd h1] at hty
        cases hty
        rw [dlookup_of_mem hnd h3] at hv
        cases hv
        refine ⟨h2, h4.imp id ?_⟩
        rintro ⟨h5, a, b, ys, e, h6⟩
        cases e
        exact ⟨h5, List.cons_ne_nil _ _, h6⟩
      · rintro ⟨h2, h4⟩
        refine ⟨_, ty, _, rfl, hmt, h2, hal', dlookup_mem hv, h4.imp id ?_⟩
        rintro ⟨h5, h6, h7⟩
        cases xs with
        | nil => exact absurd rfl h6
        | cons y ys => exact ⟨h5, x, y, ys, rfl, h7⟩
    cases hc : recordCheck v6 ty with
    | none =>
      refine none ?_
      rintro ⟨p, h⟩
      have h2 := ((fix p).1 h).1
      have key : ∀ ty ∈ recordTypes, recordCheck v6 ty ≠ .none := by
        intro ty h
        simp only [recordTypes, List.mem_cons, List.not_mem_nil, or_false] at h
        rcases h with rfl | rfl | rfl | rfl | rfl | rfl | rfl | rfl <;> simp [recordCheck]
      exact key ty h2 hc
    | some check =>
      have hin := recordCheck_some hc
      have text : ∀ q s, PropValue (.list (x :: xs)) q (.str s) → ∀ p, ∃ l, check (.str s) p = .ok l ∧
          ∀ q, q ∈ l ↔ ¬ RecordText (fun s => v6 s = true) ty s ∧ q = p := by
        intro q s hs p
        obtain ⟨check', l, h1, h2, h3⟩ := C77_record_partial v6 (s := s) hin (by
          rintro rfl
          rcases hval q _ hs with ⟨fs, e⟩ | ⟨s', e, h⟩
          · cases e
          · cases e
            exact h hmt) p
        rw [hc] at h1
        cases h1
        exact ⟨l, h2, h3⟩
      obtain ⟨b, hb1, hb2⟩ := checkValue_only (f := check) (path := path) hv (by intro h; cases h)
        (fun q h => by cases leafs _ _ h) n (fun q u h _ => by
          rcases hval q u h with ⟨fs, rfl⟩ | ⟨s, rfl, -⟩
          · exact ⟨[], recordCheck_object v6 hc fs _⟩
          · obtain ⟨l, h1, -⟩ := text q s h (path ++ .str "ResourceRecords" :: q)
            exact ⟨l, h1⟩)
      have hcn : ∃ a, (if ty = "CNAME" then countCnames below ((some (Val.list (x :: xs))).getD Val.none) (path ++ [.str "ResourceRecords"])
            else .ok []) = .ok a ∧ ∀ p, p ∈ a ↔ ty = "CNAME" ∧ xs ≠ [] ∧ p = path ++ [.str "ResourceRecords"] := by
        by_cases h : ty = "CNAME"
        · rw [if_pos h]
          unfold countCnames
          rw [hb]
          cases xs with
          | nil => exact ⟨[], rfl, fun p => by simp⟩
          | cons y ys =>
            refine ⟨[path ++ [.str "ResourceRecords"]], ?_, fun p => by simp [h]⟩
            simp [objectsDeep, Val.isList, collectM, cnameLen]
        · rw [if_neg h]
          exact ⟨[], rfl, fun p => by simp [h]⟩
      obtain ⟨a, ha1, ha2⟩ := hcn
      refine ⟨a ++ b, ?_, fun p => ?_⟩
      · simp only
        rw [ha1, hb1]
      · rw [fix, List.mem_append, ha2, hb2]
        constructor
        · rintro (h | ⟨q, u, l, h1, h2, h3, h4⟩)
          · exact ⟨hin, .inr h⟩
          · rcases hval q u h1 with ⟨fs, rfl⟩ | ⟨s, rfl, -⟩
            · rw [recordCheck_object v6 hc] at h3
              cases h3
              cases h4
            · obtain ⟨l', h5, h6⟩ := text q s h1 (path ++ .str "ResourceRecords" :: q)
              rw [h5] at h3
              cases h3
              obtain ⟨h7, h8⟩ := (h6 _).1 h4
              exact ⟨hin, .inl ⟨q, s, h1, h7, h8⟩⟩
        · rintro ⟨-, ⟨q, s, h1, h2, h3⟩ | h⟩
          · obtain ⟨l', h5, h6⟩ := text q s h1 (path ++ .str "ResourceRecords" :: q)
            exact .inr ⟨q, _, l', h1, noCall_text s, h5, (h6 _).2 ⟨h2, h3⟩⟩
          · exact .inl h
  · rename_i hty
    refine none ?_
    rintro ⟨p, _, ty', v', e, h1, -⟩
    cases e
    exact hty _ (dlookup_of_mem hnd h1)


theorem group_walk {props : List (Key × Val)} (hi : ¬ IsIf (.dict props)) : PlainWalk ["RecordSets"] (.dict props) := by
  have key : ∀ ks u, Visits ["RecordSets"] (.dict props) ks u → (ks = ["RecordSets"] ∧ u = .dict props) ∨ ks = [] := by
    intro ks u h
    induction h with
    | start => exact .inl ⟨rfl, rfl⟩
    | key _ _ ih =>
      rcases ih with ⟨e, -⟩ | e
      · cases e
        exact .inr rfl
      · cases e
    | item _ _ _ ih =>
      rcases ih with ⟨-, e⟩ | e <;> cases e
  constructor
  · intro k ks u h
    rcases key _ _ h with ⟨-, rfl⟩ | e
    · exact hi
    · cases e
  · intro k ks xs x h
    rcases key _ _ h with ⟨-, e⟩ | e <;> cases e

theorem group_selected {props : List (Key × Val)} (hi : ¬ IsIf (.dict props)) {q : Path} {w : Val} :
    Selected ["RecordSets"] (.dict props) q w → q = [.str "RecordSets"] ∧ (.str "RecordSets", w) ∈ props := by
  intro h
  cases h with
  | key h1 h2 h3 =>
    obtain ⟨rfl, e, -⟩ := (leaf_of_notIf hi).1 h1
    cases e
    cases h3
    exact ⟨rfl, h2⟩
  | item h1 =>
    obtain ⟨rfl, e, -⟩ := (leaf_of_notIf hi).1 h1
    cases e

/-- (C77) the rule reports exactly the bad records of the record sets and of the groups of them -/
theorem C77_rule_partial (v6 : String → Bool) {below : Path → PyM (List Scenario)} {t : Val} (hw : t.WF) (hg : PlainGroups t)
    (hp : ∀ path rs, RecordAt t path rs → PlainRecord rs ∧ below (path ++ [.str "ResourceRecords"]) = .ok []) {n : Nat}
    (hn : sizeOf t < n) :
    ∃ res, recordRule v6 below (n + 2) t = .ok res ∧
      ∀ p, p ∈ res ↔ ∃ path rs, RecordAt t path rs ∧ BadRecord (fun s => v6 s = true) path rs p := by
  have own : ∀ name props, HasProps t "AWS::Route53::RecordSet" name props → ∃ res,
      checkRecordset v6 below (n + 2) [.str "Resources", name, .str "Properties"] props = .ok res ∧
      ∀ p, p ∈ res ↔ BadRecord (fun s => v6 s = true) [.str "Resources", name, .str "Properties"] props p := by
    intro name props h
    obtain ⟨h1, h2⟩ := hp _ _ (.inl ⟨name, h, rfl⟩)
    exact C77_recordset_partial v6 (at_wf (hasProps_at h) hw) h1 h2 n
  have hstep : ∀ nr ∈ resourcesOfType ["AWS::Route53::RecordSet"] t, ∃ l,
      (let props := (dlookup (Key.str "Properties") nr.2).getD .none
       if props.truthy then checkRecordset v6 below (n + 2) [.str "Resources", nr.1, .str "Properties"] props else .ok []) = .ok l ∧
      ∀ p, p ∈ l ↔ ∃ props, dlookup (Key.str "Properties") nr.2 = some props ∧
        BadRecord (fun s => v6 s = true) [.str "Resources", nr.1, .str "Properties"] props p := by
    rintro ⟨name, r⟩ hm
    cases hl : dlookup (Key.str "Properties") r with
    | none => exact ⟨[], by simp [Val.truthy], fun p => by simp⟩
    | some props =>
      have hhas := (ofType_iff hw).1 ⟨r, hm, hl⟩
      obtain ⟨⟨kv, kvs, rfl, -⟩, -⟩ := hp _ _ (.inl ⟨name, hhas, rfl⟩)
      obtain ⟨l, h1, h2⟩ := own _ _ hhas
      refine ⟨l, ?_, fun p => ?_⟩
      · simp only [Option.getD_some]
        rw [if_pos (by rfl)]
        exact h1
      · rw [h2]
        simp
  obtain ⟨a, ha⟩ := collectM_ok (f := fun nr : Key × List (Key × Val) =>
    let props := (dlookup (Key.str "Properties") nr.2).getD .none
    if props.truthy then checkRecordset v6 below (n + 2) [.str "Resources", nr.1, .str "Properties"] props else .ok [])
    (as := resourcesOfType ["AWS::Route53::RecordSet"] t) (fun nr h => by
      obtain ⟨l, h1, -⟩ := hstep nr h
      exact ⟨l, h1⟩)
  obtain ⟨groups, hgr, hgm⟩ := C76_exact_partial hw (ty := "AWS::Route53::RecordSetGroup") (keys := ["RecordSets"]) (by decide)
    (n := n + 2) (by omega) (fun name props h => by
      obtain ⟨⟨kv, kvs, rfl⟩, hi⟩ := hg name props h
      exact ⟨group_walk hi, kv, kvs, rfl⟩)
  have hgroup : ∀ pv ∈ groups, ∃ l, checkGroup v6 below (n + 2) pv = .ok l ∧ ∀ p, p ∈ l ↔ ∃ xs, ∃ i : Nat, ∃ rs, pv.2 = .list xs ∧
      xs[i]? = some rs ∧ BadRecord (fun s => v6 s = true) (pv.1 ++ [.int i]) rs p := by
    rintro ⟨path, v⟩ hm
    obtain ⟨name, props, q, h1, h2, rfl⟩ := (hgm path v).1 hm
    obtain ⟨⟨kv, kvs, rfl⟩, hi⟩ := hg name props h1
    obtain ⟨rfl, hsel⟩ := group_selected hi h2
    unfold checkGroup
    simp only
    split
    · rename_i xs
      have hrec : ∀ xi ∈ xs.zipIdx, ∃ l, checkRecordset v6 below (n + 2)
          ([.str "Resources", name, .str "Properties"] ++ [.str "RecordSets"] ++ [.int xi.2]) xi.1 = .ok l ∧ ∀ p, p ∈ l ↔
          BadRecord (fun s => v6 s = true) ([.str "Resources", name, .str "Properties"] ++ [.str "RecordSets"] ++ [.int xi.2]) xi.1 p := by
        rintro ⟨rs, i⟩ hxi
        have hi' := mem_zip_iff.1 hxi
        have hat : RecordAt t [.str "Resources", name, .str "Properties", .str "RecordSets", .int i] rs :=
          .inr ⟨name, _, xs, i, h1, hsel, hi', rfl⟩
        obtain ⟨h3, h4⟩ := hp _ _ hat
        exact C77_recordset_partial v6 (at_wf (.idx hi' .here) (at_wf (.key hsel .here) (at_wf (hasProps_at h1) hw))) h3 h4 n
      obtain ⟨l, hl⟩ := collectM_ok (f := fun xi : Val × Nat => checkRecordset v6 below (n + 2)
          ([.str "Resources", name, .str "Properties"] ++ [.str "RecordSets"] ++ [.int xi.2]) xi.1) (as := xs.zipIdx) (fun xi h => by
        obtain ⟨l, h1, -⟩ := hrec xi h
        exact ⟨l, h1⟩)
      refine ⟨l, hl, fun p => ?_⟩
      rw [mem_collectM hl]
      constructor
      · rintro ⟨⟨rs, i⟩, hxi, l', h3, h4⟩
        obtain ⟨l'', h5, h6⟩ := hrec _ hxi
        rw [h3] at h5
        cases h5
        exact ⟨xs, i, rs, rfl, mem_zip_iff.1 hxi, (h6 p).1 h4⟩
      · rintro ⟨_, i, rs, e, h3, h4⟩
        cases e
        obtain ⟨l', h5, h6⟩ := hrec _ (mem_zip_iff.2 h3)
        exact ⟨_, mem_zip_iff.2 h3, l', h5, (h6 p).2 h4⟩
    · rename_i hnl
      refine ⟨[], rfl, fun p => ⟨fun h => (by cases h), ?_⟩⟩
      rintro ⟨xs, i, rs, e, -⟩
      exact absurd e (hnl xs)
  obtain ⟨b, hb⟩ := collectM_ok (f := checkGroup v6 below (n + 2)) (as := groups) (fun pv h => by
    obtain ⟨l, h1, -⟩ := hgroup pv h
    exact ⟨l, h1⟩)
  refine ⟨a ++ b, ?_, fun p => ?_⟩
  · unfold recordRule
    rw [ha]
    simp only
    rw [hgr]
    simp only
    rw [hb]
  · rw [List.mem_append, mem_collectM ha, mem_collectM hb]
    constructor
    · rintro (⟨⟨name, r⟩, hm, l, hl, hmem⟩ | ⟨⟨path, v⟩, hm, l, hl, hmem⟩)
      · obtain ⟨l', h1, h2⟩ := hstep _ hm
        rw [hl] at h1
        cases h1
        obtain ⟨props, h3, h4⟩ := (h2 p).1 hmem
        exact ⟨_, props, .inl ⟨name, (ofType_iff hw).1 ⟨r, hm, h3⟩, rfl⟩, h4⟩
      · obtain ⟨l', h1, h2⟩ := hgroup _ hm
        rw [hl] at h1
        cases h1
        obtain ⟨xs, i, rs, rfl, h3, h4⟩ := (h2 p).1 hmem
        obtain ⟨name, props, q, h5, h6, rfl⟩ := (hgm _ _).1 hm
        obtain ⟨⟨kv, kvs, rfl⟩, hi⟩ := hg name props h5
        obtain ⟨rfl, hsel⟩ := group_selected hi h6
        exact ⟨_, rs, .inr ⟨name, _, xs, i, h5, hsel, h3, rfl⟩, h4⟩
    · rintro ⟨path, rs, ⟨name, h1, rfl⟩ | ⟨name, props, xs, i, h1, h2, h3, rfl⟩, hbad⟩
      · obtain ⟨r, hm, hl⟩ := (ofType_iff hw).2 h1
        obtain ⟨l, h3, h4⟩ := hstep _ hm
        exact .inl ⟨_, hm, l, h3, (h4 _).2 ⟨rs, hl, hbad⟩⟩
      · obtain ⟨⟨kv, kvs, e⟩, hi⟩ := hg name _ h1
        have hm : ([.str "Resources", name, .str "Properties"] ++ [.str "RecordSets"], Val.list xs) ∈ groups :=
          (hgm _ _).2 ⟨name, _, [.str "RecordSets"], h1,
            .key (q := []) ((leaf_of_notIf hi).2 ⟨rfl, rfl, fun e' => by
              rw [noValue] at e'
              cases e'
              simp at h2⟩) h2 .done, rfl⟩
        obtain ⟨l, h3', h4⟩ := hgroup _ hm
        exact .inr ⟨_, hm, l, h3', (h4 _).2 ⟨xs, i, rs, rfl, h3, hbad⟩⟩


/-- a record set with two records -/
def exRecords (ty a b : String) : Val := .dict [(.str "Type", .str ty), (.str "ResourceRecords", .list [.str a, .str b])]

theorem exRecords_plain {ty a b : String} (h : ty ≠ "MX") : PlainRecord (exRecords ty a b) := by
  refine ⟨_, _, rfl, fun v h' => by simp at h', fun v h' => ?_⟩
  simp at h'
  subst h'
  refine ⟨⟨_, rfl⟩, ?_⟩
  rintro q u ⟨q', u', h1, h2⟩
  obtain ⟨rfl, rfl⟩ := leaf_list h1
  rcases h2 with ⟨h2, -⟩ | ⟨xs, i, x, r, e, h3, h4, -⟩
  · exact absurd rfl (h2 _)
  · cases e
    have hx : ∃ s, x = .str s := by
      have := List.mem_of_getElem? h3
      simp at this
      rcases this with rfl | rfl <;> exact ⟨_, rfl⟩
    obtain ⟨s, rfl⟩ := hx
    obtain ⟨-, rfl, -⟩ := (leaf_of_notIf (by rintro ⟨c, a, b, e⟩)).1 h4
    refine .inr ⟨s, rfl, fun hm => ?_⟩
    simp at hm
    exact absurd hm.symm h

/-- the conditions of the theorem are met and two records of a CNAME are reported -/
example (v6 : String → Bool) : ∃ res, checkRecordset v6 (fun _ => .ok []) 2 [] (exRecords "CNAME" "a" "b") = .ok res ∧
    [.str "ResourceRecords"] ∈ res := by
  obtain ⟨res, h1, h2⟩ := C77_recordset_partial v6 (below := fun _ => .ok []) (path := [])
    (rs := exRecords "CNAME" "a" "b") (by simp [exRecords, Val.WF, Val.WFDict, Val.WFList]) (exRecords_plain (by decide)) rfl 0
  exact ⟨res, h1, (h2 _).2 ⟨_, _, _, rfl, List.mem_cons_self, by decide, fun a h => by simp at h, List.mem_cons_of_mem _ List.mem_cons_self,
    .inr ⟨rfl, _, _, _, rfl, rfl⟩⟩⟩

/-- a template with one record set and one group -/
def exZone (a b : Val) : Val := .dict [(.str "Resources", .dict [
  (.str "R", .dict [(.str "Type", .str "AWS::Route53::RecordSet"), (.str "Properties", a)]),
  (.str "G", .dict [(.str "Type", .str "AWS::Route53::RecordSetGroup"), (.str "Properties", .dict [(.str "RecordSets", .list [b])])])])]

theorem exZone_wf (ty a b : String) : (exZone (exRecords ty a b) (exRecords ty a b)).WF := by
  simp [exZone, exRecords, Val.WF, Val.WFDict, Val.WFList]

theorem exZone_props {a b : Val} (hw : (exZone a b).WF) {ty : String} {name : Key} {v : Val} (h : HasProps (exZone a b) ty name v) :
    (ty = "AWS::Route53::RecordSet" ∧ v = a) ∨ (ty = "AWS::Route53::RecordSetGroup" ∧ v = .dict [(.str "RecordSets", .list [b])]) := by
  obtain ⟨rs, r, h1, h2, h3, h4⟩ := h
  cases at_det hw (.key List.mem_cons_self .here) h1
  simp at h2
  rcases h2 with ⟨rfl, rfl⟩ | ⟨rfl, rfl⟩
  · simp at h3 h4
    exact .inl ⟨h3, h4⟩
  · simp at h3 h4
    exact .inr ⟨h3, h4⟩

theorem exZone_at {a b : Val} (hw : (exZone a b).WF) {path : Path} {rs : Val} (h : RecordAt (exZone a b) path rs) : rs = a ∨ rs = b := by
  rcases h with ⟨name, h, -⟩ | ⟨name, props, xs, i, h, h1, h2, -⟩
  · rcases exZone_props hw h with ⟨-, h⟩ | ⟨h, -⟩
    · exact .inl h
    · exact absurd h (by decide)
  · rcases exZone_props hw h with ⟨h, -⟩ | ⟨-, h⟩
    · exact absurd h (by decide)
    · cases h
      simp at h1
      cases h1
      exact .inr (by simpa using List.mem_of_getElem? h2)

/-- the conditions of the theorem on the rule are met; records of a group are reported -/
example (v6 : String → Bool) : ∃ n res, recordRule v6 (fun _ => .ok []) n (exZone (exRecords "CNAME" "a" "b") (exRecords "CNAME" "a" "b")) = .ok res ∧
    [.str "Resources", .str "G", .str "Properties", .str "RecordSets", .int 0, .str "ResourceRecords"] ∈ res := by
  have hw := exZone_wf "CNAME" "a" "b"
  obtain ⟨res, h1, h2⟩ := C77_rule_partial v6 (below := fun _ => .ok []) hw (fun name props h => by
      rcases exZone_props hw h with ⟨h, -⟩ | ⟨-, rfl⟩
      · exact absurd h (by decide)
      · exact ⟨⟨_, _, rfl⟩, fun hi => by obtain ⟨a, e⟩ := hi; simp at e⟩)
    (fun path rs h => by
      rcases exZone_at hw h with rfl | rfl <;> exact ⟨exRecords_plain (by decide), rfl⟩) (Nat.lt_succ_self _)
  refine ⟨_, res, h1, (h2 _).2 ⟨_, exRecords "CNAME" "a" "b", .inr ⟨.str "G", _, _, 0,
    ⟨_, _, .key List.mem_cons_self .here, List.mem_cons_of_mem _ List.mem_cons_self, List.mem_cons_self,
      List.mem_cons_of_mem _ List.mem_cons_self⟩, List.mem_cons_self, rfl, rfl⟩, ?_⟩⟩
  exact ⟨_, _, _, rfl, List.mem_cons_self, by decide, fun a h => by simp at h, List.mem_cons_of_mem _ List.mem_cons_self,
    .inr ⟨rfl, _, _, _, rfl, rfl⟩⟩

end CfnLint
