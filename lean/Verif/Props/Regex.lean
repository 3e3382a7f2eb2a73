import Verif.Lemmas.Regex
import Mathlib.Tactic.Common
/- Properties of the regular expressions for addresses and records (C74). -/
namespace CfnLint
open Spec Rx

/-- the digits of the numbers below a bound -/
def decimals (n : Nat) : List (List Char) := (List.range n).map (Nat.toDigits 10)

theorem mem_decimals {n : Nat} {l : List Char} : l ∈ decimals (n + 1) ↔ ∃ k, k ≤ n ∧ Decimal k l := by
  unfold decimals Decimal
  simp only [List.mem_map, List.mem_range, Nat.lt_succ_iff]
  exact ⟨fun ⟨k, h, e⟩ => ⟨k, h, e.symm⟩, fun ⟨k, h, e⟩ => ⟨k, h, e.symm⟩⟩

/-- a text is in the language when nothing may be left of it -/
theorem lang_of_rest {r : Rx} {l : List Char} (h : (r.rest l).contains [] = true) : Lang r l := by
  obtain ⟨w, e, hw⟩ := mem_rest.1 (List.contains_iff_mem.1 h)
  rw [e, List.append_nil]
  exact hw

theorem octet_words {w : List Char} (h : Lang octetRx w) : w ∈ decimals 256 := by
  unfold octetRx times times times at h
  simp only [lang_alt, lang_seq, lang_chr, lang_dig, lang_eps, lang_digits (show '0' ≤ '1' by decide) (show '9' ≤ '9' by decide),
    lang_digits (show '0' ≤ '0' by decide) (show '4' ≤ '9' by decide), lang_digits (show '0' ≤ '0' by decide) (show '5' ≤ '9' by decide)] at h
  rcases h with ⟨a, ha, rfl⟩ | ⟨_, _, ⟨a, ha, ha', rfl⟩, ⟨b, hb, rfl⟩, rfl⟩ |
    ⟨_, _, rfl, ⟨_, _, ⟨a, ha, rfl⟩, ⟨_, _, ⟨b, hb, rfl⟩, rfl, rfl⟩, rfl⟩, rfl⟩ |
    ⟨_, _, rfl, ⟨_, _, ⟨a, ha, ha', rfl⟩, ⟨b, hb, rfl⟩, rfl⟩, rfl⟩ |
    ⟨_, _, rfl, ⟨_, _, rfl, ⟨a, ha, ha', rfl⟩, rfl⟩, rfl⟩
  · revert a; decide +kernel
  · revert ha'; revert b; revert a; decide +kernel
  · revert b; revert a; decide +kernel
  · revert ha'; revert b; revert a; decide +kernel
  · revert ha'; revert a; decide +kernel

theorem lang_octet {w : List Char} : Lang octetRx w ↔ ∃ n, n ≤ 255 ∧ Decimal n w := by
  rw [← mem_decimals]
  refine ⟨octet_words, fun h => lang_of_rest ?_⟩
  revert w
  decide +kernel

theorem mask_words {w : List Char} (h : Lang maskRx w) : w ∈ decimals 33 := by
  unfold maskRx at h
  simp only [lang_alt, lang_seq, lang_chr, lang_dig, lang_digits (show '0' ≤ '1' by decide) (show '2' ≤ '9' by decide),
    lang_digits (show '0' ≤ '0' by decide) (show '2' ≤ '9' by decide)] at h
  rcases h with ⟨a, ha, rfl⟩ | ⟨_, _, ⟨a, ha, ha', rfl⟩, ⟨b, hb, rfl⟩, rfl⟩ | ⟨_, _, rfl, ⟨a, ha, ha', rfl⟩, rfl⟩
  · revert a; decide +kernel
  · revert ha'; revert b; revert a; decide +kernel
  · revert ha'; revert a; decide +kernel

theorem lang_mask {w : List Char} : Lang maskRx w ↔ ∃ n, n ≤ 32 ∧ Decimal n w := by
  rw [← mem_decimals]
  refine ⟨mask_words, fun h => lang_of_rest ?_⟩
  revert w
  decide +kernel

theorem lang_cidr {l : List Char} : Lang regexCidr l ↔
    ∃ a b c d m w x y z v, a ≤ 255 ∧ b ≤ 255 ∧ c ≤ 255 ∧ d ≤ 255 ∧ m ≤ 32 ∧ Decimal a w ∧ Decimal b x ∧ Decimal c y ∧ Decimal d z ∧
      Decimal m v ∧ l = w ++ '.' :: (x ++ '.' :: (y ++ '.' :: (z ++ '/' :: v))) := by
  unfold regexCidr times times times times
  simp only [lang_seq, lang_eps, lang_chr, lang_octet, lang_mask]
  constructor
  · rintro ⟨_, _, ⟨_, _, ⟨w, _, ⟨a, ha, hw⟩, rfl, rfl⟩, ⟨_, _, ⟨x, _, ⟨b, hb, hx⟩, rfl, rfl⟩, ⟨_, _, ⟨y, _, ⟨c, hc, hy⟩, rfl, rfl⟩,
      rfl, rfl⟩, rfl⟩, rfl⟩, ⟨z, _, ⟨d, hd, hz⟩, ⟨_, v, rfl, ⟨m, hm, hv⟩, rfl⟩, rfl⟩, rfl⟩
    exact ⟨a, b, c, d, m, w, x, y, z, v, ha, hb, hc, hd, hm, hw, hx, hy, hz, hv, by simp⟩
  · rintro ⟨a, b, c, d, m, w, x, y, z, v, ha, hb, hc, hd, hm, hw, hx, hy, hz, hv, rfl⟩
    exact ⟨_, _, ⟨_, _, ⟨w, _, ⟨a, ha, hw⟩, rfl, rfl⟩, ⟨_, _, ⟨x, _, ⟨b, hb, hx⟩, rfl, rfl⟩, ⟨_, _, ⟨y, _, ⟨c, hc, hy⟩, rfl, rfl⟩,
      rfl, rfl⟩, rfl⟩, rfl⟩, ⟨z, _, ⟨d, hd, hz⟩, ⟨_, v, rfl, ⟨m, hm, hv⟩, rfl⟩, rfl⟩, by simp⟩

theorem noBreak_of {P : List Char → Prop} {s : String} (hb : ¬ ∃ l, s.toList = l ++ ['\n']) : MaybeBreak P s ↔ P s.toList :=
  ⟨fun ⟨l, h, h'⟩ => h'.elim (fun e => e ▸ h) (fun e => absurd ⟨l, e⟩ hb), fun h => ⟨_, h, .inl rfl⟩⟩

/-- (C74) REGEX_CIDR accepts exactly four numbers up to 255 with dots, a stroke and a number up to 32, none with a leading zero; a
line break at the end is accepted as well -/
theorem C74_cidr_partial {s : String} (hb : ¬ ∃ l, s.toList = l ++ ['\n']) : regexCidr.matchesAll s = true ↔ CidrText s := by
  rw [matchesAll_iff, noBreak_of hb, lang_cidr]
  rfl

/-- (C74) the statement without the condition -/
def C74_cidr_statement : Prop := ∀ s : String, regexCidr.matchesAll s = true ↔ CidrText s

theorem C74_cidr_break {s : String} : regexCidr.matchesAll (s ++ "\n") = true ↔ CidrText s ∨ CidrText (s ++ "\n") := by
  rw [matchesAll_iff]
  unfold MaybeBreak CidrText
  simp only [lang_cidr, String.toList_append]
  constructor
  · rintro ⟨l, h, e | e⟩
    · rw [← e] at h; exact .inr h
    · have e := List.append_cancel_right e
      rw [← e] at h; exact .inl h
  · rintro (h | h)
    · exact ⟨_, h, .inr rfl⟩
    · exact ⟨_, h, .inl rfl⟩

theorem toDigits_ends {n : Nat} (hn : n ≤ 32) {l : List Char} (h : Decimal n l) : l.getLast? ≠ some '\n' := by
  have : l ∈ decimals 33 := mem_decimals.2 ⟨n, hn, h⟩
  revert l
  have : ∀ l ∈ decimals 33, l.getLast? ≠ some '\n' ∧ l ≠ [] := by decide +kernel
  exact fun l _ h => (this l h).1

theorem toDigits_ne {n : Nat} (hn : n ≤ 32) {l : List Char} (h : Decimal n l) : l ≠ [] := by
  have : l ∈ decimals 33 := mem_decimals.2 ⟨n, hn, h⟩
  revert l
  have : ∀ l ∈ decimals 33, l.getLast? ≠ some '\n' ∧ l ≠ [] := by decide +kernel
  exact fun l _ h => (this l h).2

theorem cidrText_break {s : String} : ¬ CidrText (s ++ "\n") := by
  rintro ⟨a, b, c, d, m, w, x, y, z, v, -, -, -, -, hm, -, -, -, -, hv, e⟩
  have h1 := congrArg List.getLast? e
  have e2 : w ++ '.' :: (x ++ '.' :: (y ++ '.' :: (z ++ '/' :: v))) = (w ++ '.' :: (x ++ '.' :: (y ++ '.' :: (z ++ ['/'])))) ++ v := by simp
  rw [e2, List.getLast?_append, String.toList_append, List.getLast?_append] at h1
  cases hl : v.getLast? with
  | none => exact toDigits_ne hm hv (List.getLast?_eq_none_iff.1 hl)
  | some c =>
    rw [hl] at h1
    have h1 : some '\n' = some c := h1
    exact toDigits_ends hm hv (by rw [hl, h1])

/-- (C74) the statement fails: every block with a line break behind it is accepted -/
theorem C74_cidr_violated : ¬ C74_cidr_statement := by
  intro h
  have h1 : CidrText "10.0.0.0/8" := ⟨10, 0, 0, 0, 8, _, _, _, _, _, by decide, by decide, by decide, by decide, by decide, rfl, rfl, rfl,
    rfl, rfl, by decide +kernel⟩
  exact cidrText_break ((h ("10.0.0.0/8" ++ "\n")).1 (C74_cidr_break.2 (.inl h1)))

example : CidrText "192.168.0.0/16" := (C74_cidr_partial (by
  rintro ⟨l, h⟩
  have := congrArg List.getLast? h
  simp at this)).1 (by decide +kernel)
example : ¬ CidrText "192.168.0.0/33" := fun h => absurd ((C74_cidr_partial (by
  rintro ⟨l, h⟩
  have := congrArg List.getLast? h
  simp at this)).2 h) (by decide +kernel)

theorem ipOctet_words {w : List Char} (h : Lang ipOctetRx w) : LooseOctet w := by
  have key : w ∈ (digitChars.map (fun a => [a])) ++ (digitChars.flatMap (fun a => digitChars.map (fun b => [a, b]))) ++
      (['0', '1'].flatMap fun a => digitChars.flatMap (fun b => digitChars.map (fun c => [a, b, c]))) ++
      (['0', '1', '2', '3', '4'].flatMap fun a => digitChars.map fun b => ['2', a, b]) ++
      (['0', '1', '2', '3', '4', '5'].map fun a => ['2', '5', a]) := by
    unfold ipOctetRx at h
    simp only [lang_alt, lang_seq, lang_chr, lang_dig, lang_opt, lang_digits (show '0' ≤ '0' by decide) (show '1' ≤ '9' by decide),
      lang_digits (show '0' ≤ '0' by decide) (show '4' ≤ '9' by decide), lang_digits (show '0' ≤ '0' by decide) (show '5' ≤ '9' by decide)] at h
    rcases h with ⟨_, _, rfl, ⟨_, _, rfl, ⟨a, ha, ha', rfl⟩, rfl⟩, rfl⟩ | ⟨_, _, rfl, ⟨_, _, ⟨a, ha, ha', rfl⟩, ⟨b, hb, rfl⟩, rfl⟩, rfl⟩ |
      ⟨_, _, ⟨a, ha, ha', rfl⟩ | rfl, ⟨_, _, ⟨b, hb, rfl⟩, ⟨c, hc, rfl⟩ | rfl, rfl⟩, rfl⟩
    · revert ha'; revert a; decide +kernel
    · revert ha'; revert b; revert a; decide +kernel
    · revert ha'; revert c; revert b; revert a; decide +kernel
    · revert ha'; revert b; revert a; decide +kernel
    · revert c; revert b; decide +kernel
    · revert b; decide +kernel
  unfold LooseOctet
  simp only [← digit_mem]
  clear h
  revert w
  decide +kernel

theorem lang_ipOctet {w : List Char} : Lang ipOctetRx w ↔ LooseOctet w := by
  refine ⟨ipOctet_words, fun ⟨h1, h2, h3, h4⟩ => lang_of_rest ?_⟩
  have k1 : ∀ a ∈ digitChars, (ipOctetRx.rest [a]).contains [] = true := by decide +kernel
  have k2 : ∀ a ∈ digitChars, ∀ b ∈ digitChars, (ipOctetRx.rest [a, b]).contains [] = true := by decide +kernel
  have k3 : ∀ a ∈ digitChars, ∀ b ∈ digitChars, ∀ c ∈ digitChars, digitsValue [a, b, c] ≤ 255 →
      (ipOctetRx.rest [a, b, c]).contains [] = true := by decide +kernel
  match w, h1, h2 with
  | [a], _, _ => exact k1 a (digit_mem.2 (h3 a (by simp)))
  | [a, b], _, _ => exact k2 a (digit_mem.2 (h3 a (by simp))) b (digit_mem.2 (h3 b (by simp)))
  | [a, b, c], _, _ => exact k3 a (digit_mem.2 (h3 a (by simp))) b (digit_mem.2 (h3 b (by simp))) c (digit_mem.2 (h3 c (by simp))) h4
  | _ :: _ :: _ :: _ :: _, _, h => simp only [List.length_cons] at h; omega

theorem lang_ipv4 {l : List Char} : Lang regexIpv4 l ↔ LooseIpv4 l := by
  unfold regexIpv4 times times times times LooseIpv4
  simp only [lang_seq, lang_eps, lang_chr, lang_ipOctet]
  constructor
  · rintro ⟨w, _, hw, ⟨_, _, ⟨_, x, rfl, hx, rfl⟩, ⟨_, _, ⟨_, y, rfl, hy, rfl⟩, ⟨_, _, ⟨_, z, rfl, hz, rfl⟩, rfl, rfl⟩, rfl⟩, rfl⟩, rfl⟩
    exact ⟨w, x, y, z, hw, hx, hy, hz, by simp⟩
  · rintro ⟨w, x, y, z, hw, hx, hy, hz, rfl⟩
    exact ⟨w, _, hw, ⟨_, _, ⟨_, x, rfl, hx, rfl⟩, ⟨_, _, ⟨_, y, rfl, hy, rfl⟩, ⟨_, _, ⟨_, z, rfl, hz, rfl⟩, rfl, rfl⟩, rfl⟩, rfl⟩, by simp⟩

/-- (C74) REGEX_IPV4 accepts exactly four groups of one to three digits with values up to 255, perhaps with a line break behind them -/
theorem C74_ipv4_exact (s : String) : regexIpv4.matchesAll s = true ↔ MaybeBreak LooseIpv4 s := by
  rw [matchesAll_iff]
  unfold MaybeBreak
  simp only [lang_ipv4]

/-- (C74) every address is accepted -/
theorem C74_ipv4_accepts {s : String} (h : Ipv4Text s) : regexIpv4.matchesAll s = true := by
  obtain ⟨a, b, c, d, w, x, y, z, ha, hb, hc, hd, hw, hx, hy, hz, e⟩ := h
  have key : ∀ l ∈ decimals 256, (ipOctetRx.rest l).contains [] = true := by decide +kernel
  have loose : ∀ {n l}, n ≤ 255 → Decimal n l → LooseOctet l := fun hn hl =>
    lang_ipOctet.1 (lang_of_rest (key _ (mem_decimals.2 ⟨_, hn, hl⟩)))
  exact (C74_ipv4_exact s).2 ⟨_, ⟨w, x, y, z, loose ha hw, loose hb hx, loose hc hy, loose hd hz, e⟩, .inl rfl⟩

/-- (C74) nothing but addresses is accepted -/
def C74_ipv4_statement : Prop := ∀ s : String, regexIpv4.matchesAll s = true ↔ Ipv4Text s

/-- (C74) numbers with leading zeros are accepted -/
theorem C74_ipv4_violated : ¬ C74_ipv4_statement := by
  intro h
  obtain ⟨a, b, c, d, w, x, y, z, ha, hb, hc, hd, hw, hx, hy, hz, e⟩ := (h "010.0.0.1").1 (by decide +kernel)
  have hw : w ∈ decimals 256 := mem_decimals.2 ⟨_, ha, hw⟩
  have key : ∀ l ∈ decimals 256, l ≠ [] ∧ (l.head? = some '0' → l = ['0']) := by decide +kernel
  obtain ⟨h1, h2⟩ := key w hw
  match w, h1 with
  | a :: as, _ =>
    rw [show "010.0.0.1".toList = '0' :: "10.0.0.1".toList by decide +kernel] at e
    have e1 : '0' = a := (List.cons.inj e).1
    have e2 := h2 (by rw [← e1]; rfl)
    rw [e2, show "10.0.0.1".toList = '1' :: "0.0.0.1".toList by decide +kernel] at e
    exact absurd (List.cons.inj (List.cons.inj e).2).1 (by decide)

example : Ipv4Text "10.0.0.255" := ⟨10, 0, 0, 255, _, _, _, _, by decide, by decide, by decide, by decide, rfl, rfl, rfl, rfl, by decide +kernel⟩

theorem lang_alnum {w : List Char} : Lang alnumRx w ↔ ∃ c, (('a' ≤ c ∧ c ≤ 'z') ∨ ('A' ≤ c ∧ c ≤ 'Z') ∨ ('0' ≤ c ∧ c ≤ '9')) ∧ w = [c] := by
  unfold alnumRx dig
  simp only [lang_alt, lang_rng]
  constructor
  · rintro (⟨c, h, rfl⟩ | ⟨c, h, rfl⟩ | ⟨c, h, rfl⟩)
    exacts [⟨c, .inl h, rfl⟩, ⟨c, .inr (.inl h), rfl⟩, ⟨c, .inr (.inr h), rfl⟩]
  · rintro ⟨c, h | h | h, rfl⟩
    exacts [.inl ⟨c, h, rfl⟩, .inr (.inl ⟨c, h, rfl⟩), .inr (.inr ⟨c, h, rfl⟩)]

/-- a repetition of single characters -/
theorem lang_star_chars {a : Rx} {P : Char → Prop} (h : ∀ w, Lang a w ↔ ∃ c, P c ∧ w = [c]) {l : List Char} :
    Lang (.star a) l ↔ ∀ c ∈ l, P c := by
  induction l with
  | nil => exact ⟨fun _ c hc => (by cases hc), fun _ => .nil⟩
  | cons c cs ih =>
    constructor
    · intro h1
      rcases lang_star.1 h1 with e | ⟨u, v, hu, hv, e⟩
      · cases e
      · obtain ⟨d, hd, rfl⟩ := (h u).1 hu
        cases e
        intro x hx
        rcases List.mem_cons.1 hx with rfl | hx
        · exact hd
        · exact ih.1 hv x hx
    · intro h1
      exact .cons (u := [c]) ((h _).2 ⟨c, h1 c List.mem_cons_self, rfl⟩) (ih.2 fun x hx => h1 x (List.mem_cons_of_mem _ hx))

/-- (C74) REGEX_ALPHANUMERIC accepts exactly letters and digits, perhaps with a line break behind them -/
theorem C74_alphanumeric (s : String) : regexAlphanumeric.matchesAll s = true ↔ MaybeBreak Alnum s := by
  rw [matchesAll_iff]
  unfold MaybeBreak regexAlphanumeric Alnum
  simp only [lang_star_chars (fun w => lang_alnum)]

example : MaybeBreak Alnum "Bucket1" := (C74_alphanumeric _).1 (by decide +kernel)
example : ¬ MaybeBreak Alnum "my-bucket" := fun h => absurd ((C74_alphanumeric _).2 h) (by decide +kernel)

theorem domainChar_iff {c : Char} : domainChar c = true ↔ '!' ≤ c ∧ c ≤ '~' := by
  have key : ∀ n : Nat, n < 128 → (domainChar (Char.ofNat n) = true ↔ 33 ≤ n ∧ n ≤ 126) := by decide +kernel
  by_cases hn : c.toNat < 128
  · have := key c.toNat hn
    rw [Char.ofNat_toNat] at this
    exact this
  · constructor
    · intro h
      unfold domainChar at h
      simp only [Bool.or_eq_true, Bool.and_eq_true, decide_eq_true_iff, List.contains_iff_mem] at h
      rcases h with (((h | h) | h) | h) | h
      · have : c.toNat ≤ 122 := h.2
        omega
      · have : c.toNat ≤ 90 := h.2
        omega
      · have : c.toNat ≤ 57 := h.2
        omega
      · have : c.toNat ≤ 47 := h.2
        omega
      · have : ∀ d ∈ "!\"#$%&'()*+:;<=>?@[\\]^_`{|}~.".toList, d.toNat < 128 := by decide +kernel
        exact absurd (this c h) hn
    · rintro ⟨-, h⟩
      have : c.toNat ≤ 126 := h
      omega

/-- (C74) REGEX_DOMAINNAME accepts exactly one or more visible ASCII characters, perhaps with a line break behind them -/
theorem C74_domain (s : String) : regexDomain.matchesAll s = true ↔ MaybeBreak DomainText s := by
  rw [matchesAll_iff]
  unfold MaybeBreak
  have : ∀ l, Lang regexDomain l ↔ DomainText l := by
    intro l
    unfold regexDomain DomainText
    simp only [lang_seq, lang_set, lang_star_chars (fun w => lang_set), domainChar_iff]
    constructor
    · rintro ⟨_, v, ⟨c, hc, rfl⟩, hv, rfl⟩
      refine ⟨by simp, fun d hd => ?_⟩
      rcases List.mem_cons.1 hd with rfl | hd
      · exact hc
      · exact hv d hd
    · rintro ⟨h1, h2⟩
      match l, h1 with
      | c :: cs, _ => exact ⟨[c], cs, ⟨c, h2 c List.mem_cons_self, rfl⟩, fun d hd => h2 d (List.mem_cons_of_mem _ hd), rfl⟩
  simp only [this]

theorem lang_atMost {p : Char → Bool} : ∀ {n : Nat} {l : List Char}, Lang (atMost n (.set p)) l ↔ l.length ≤ n ∧ ∀ c ∈ l, p c = true
  | 0, l => by
    unfold atMost
    rw [lang_eps]
    constructor
    · rintro rfl
      exact ⟨Nat.le_refl _, fun c hc => by cases hc⟩
    · rintro ⟨h, -⟩
      exact List.length_eq_zero_iff.1 (Nat.le_zero.1 h)
  | n + 1, l => by
    unfold atMost
    simp only [lang_opt, lang_seq, lang_set, lang_atMost (n := n)]
    constructor
    · rintro (⟨_, v, ⟨c, hc, rfl⟩, ⟨h1, h2⟩, rfl⟩ | rfl)
      · refine ⟨by simp only [List.cons_append, List.nil_append, List.length_cons]; omega, fun d hd => ?_⟩
        rcases List.mem_cons.1 hd with rfl | hd
        · exact hc
        · exact h2 d hd
      · exact ⟨Nat.zero_le _, fun c hc => by cases hc⟩
    · rintro ⟨h1, h2⟩
      match l with
      | [] => exact .inr rfl
      | c :: cs =>
        refine .inl ⟨[c], cs, ⟨c, h2 c List.mem_cons_self, rfl⟩, ⟨?_, fun d hd => h2 d (List.mem_cons_of_mem _ hd)⟩, rfl⟩
        simp only [List.length_cons] at h1
        omega

theorem lang_txtItem {l : List Char} : Lang txtItemRx l ↔ TxtItem l := by
  unfold txtItemRx TxtItem
  simp only [lang_seq, lang_chr, lang_set, lang_atMost, decide_eq_true_iff]
  constructor
  · rintro ⟨_, _, rfl, ⟨_, _, ⟨_, v, ⟨c, hc, rfl⟩, ⟨h1, h2⟩, rfl⟩, rfl, rfl⟩, rfl⟩
    refine ⟨c :: v, by simp, fun h => ?_, by simp, by simp only [List.length_cons]; omega⟩
    rcases List.mem_cons.1 h with h | h
    · exact hc h.symm
    · exact h2 _ h rfl
  · rintro ⟨w, rfl, h1, h2, h3⟩
    match w with
    | [] => simp at h2
    | c :: v =>
      refine ⟨_, _, rfl, ⟨_, _, ⟨[c], v, ⟨c, fun e => h1 (e ▸ List.mem_cons_self), rfl⟩, ⟨?_, fun d hd e => h1 (e ▸ List.mem_cons_of_mem _ hd)⟩,
        rfl⟩, rfl, rfl⟩, by simp⟩
      simp only [List.length_cons] at h3
      omega

theorem lang_txt_star {r : List Char} (h : TxtItem r) {u : List Char} (hu : Lang (.star (.seq txtItemRx (.star (chr ' ')))) u) : TxtText (u ++ r) := by
  generalize e : Rx.star (.seq txtItemRx (.star (chr ' '))) = x at hu
  induction hu with
  | nil => exact .one h
  | @cons a u v h1 h2 _ ih2 =>
    cases e
    obtain ⟨l, b, hl, hb, rfl⟩ := lang_seq.1 h1
    have hb := (lang_star_chars (P := fun c => c = ' ') (fun w => by rw [lang_chr]; simp)).1 hb
    have := ih2 rfl
    rw [List.append_assoc, List.append_assoc]
    exact .more (lang_txtItem.1 hl) hb this
  | eps => cases e
  | set _ => cases e
  | seq _ _ => cases e
  | left _ => cases e
  | right _ => cases e

/-- (C74) REGEX_TXT accepts exactly one or more items in quotation marks, each of one to 255 characters, with only spaces between
them, perhaps with a line break behind them -/
theorem C74_txt (s : String) : regexTxt.matchesAll s = true ↔ MaybeBreak TxtText s := by
  rw [matchesAll_iff]
  unfold MaybeBreak
  have : ∀ l, Lang regexTxt l ↔ TxtText l := by
    intro l
    unfold regexTxt
    constructor
    · intro h
      obtain ⟨u, v, hu, hv, rfl⟩ := lang_seq.1 h
      exact lang_txt_star (lang_txtItem.1 hv) hu
    · intro h
      induction h with
      | one h => exact .seq (u := []) .nil (lang_txtItem.2 h)
      | @more l b r h1 h2 _ ih =>
        obtain ⟨u, v, hu, hv, rfl⟩ := lang_seq.1 ih
        rw [← List.append_assoc, ← List.append_assoc]
        refine .seq (.cons (.seq (lang_txtItem.2 h1) ?_) hu) hv
        exact (lang_star_chars (P := fun c => c = ' ') (fun w => by rw [lang_chr]; simp)).2 h2
  simp only [this]

theorem lang_word : ∀ {w l : List Char}, Lang (word w) l ↔ l = w
  | [], l => by unfold word; exact lang_eps
  | c :: cs, l => by
    unfold word
    simp only [lang_seq, lang_chr, lang_word (w := cs)]
    constructor
    · rintro ⟨_, _, rfl, rfl, rfl⟩; rfl
    · rintro rfl; exact ⟨_, _, rfl, rfl, rfl⟩

/-- (C74) REGEX_CNAME_VALIDATIONS accepts exactly the names that end in `.acm-validations.aws`, perhaps with a dot, perhaps with a line
break behind them, and that have no other line break -/
theorem C74_validations (s : String) : regexCname.matchesAll s = true ↔ MaybeBreak ValidationText s := by
  rw [matchesAll_iff]
  unfold MaybeBreak
  have : ∀ l, Lang regexCname l ↔ ValidationText l := by
    intro l
    unfold regexCname ValidationText
    simp only [lang_seq, lang_opt, lang_chr, lang_word, lang_star_chars (fun w => lang_set), decide_eq_true_iff]
    constructor
    · rintro ⟨w, _, hw, ⟨_, e, rfl, he, rfl⟩, rfl⟩
      exact ⟨w, e, fun h => hw _ h rfl, he.symm, rfl⟩
    · rintro ⟨w, e, hw, he, rfl⟩
      exact ⟨w, _, fun c hc hn => hw (hn ▸ hc), ⟨_, e, rfl, he.symm, rfl⟩, rfl⟩
  simp only [this]

example : MaybeBreak TxtText "\"one\" \"two\"" := (C74_txt _).1 (by decide +kernel)
example : ¬ MaybeBreak TxtText "one" := fun h => absurd ((C74_txt _).2 h) (by decide +kernel)
example : MaybeBreak DomainText "example.com" := (C74_domain _).1 (by decide +kernel)
example : MaybeBreak ValidationText "_x.acm-validations.aws." := (C74_validations _).1 (by decide +kernel)

end CfnLint
