import Verif.Spec.Json
import Mathlib.Tactic.IntervalCases
import Mathlib.Tactic.Ring
/-
Lemmas about the JSON decoder model.
-/
namespace CfnLint
open Spec

/-! ### Whitespace -/

theorem isJsonWs_iff (c : Char) : isJsonWs c = true ↔ c = ' ' ∨ c = '\t' ∨ c = '\n' ∨ c = '\r' := by
  simp [isJsonWs, or_assoc]

theorem skipWs_blank {w : List Char} (hw : Blank w) (r : List Char) : skipWs (w ++ r) = skipWs r := by
  induction w with
  | nil => rfl
  | cons c w ih =>
    have hc : isJsonWs c = true := (isJsonWs_iff c).2 (hw c (by simp))
    have := ih (fun d hd => hw d (by simp [hd]))
    simpa [skipWs, hc] using this

theorem skipWs_cons {c : Char} (hc : isJsonWs c = false) (r : List Char) : skipWs (c :: r) = c :: r := by
  simp [skipWs, hc]

theorem skipWs_length (s : List Char) : (skipWs s).length ≤ s.length :=
  List.IsSuffix.length_le (List.dropWhile_suffix _)

theorem skipWs_blank_nil {w : List Char} (hw : Blank w) : skipWs w = [] := by
  have := skipWs_blank hw []
  simpa [skipWs] using this

/-! ### Strings -/

theorem hexDigit_ne {c : Char} {n : Nat} (h : HexDigit c n) : c ≠ 'x' ∧ c ≠ 'X' := by
  cases h with
  | dec n h => interval_cases n <;> decide
  | upper n h => interval_cases n <;> decide
  | lower n h => interval_cases n <;> decide

theorem hex4_split {h : List Char} {u : Nat} (hh : Hex4 h u) :
    ∃ a b c d, h = [a, b, c, d] ∧ b ≠ 'x' ∧ b ≠ 'X' := by
  cases hh with
  | mk _ hb _ _ => exact ⟨_, _, _, _, rfl, (hexDigit_ne hb).1, (hexDigit_ne hb).2⟩

theorem decodeU_hex {int16 : List Char → Option Int} (hi : ReadsHex int16) {a b c d : Char} {u : Nat}
    (hh : Hex4 [a, b, c, d] u) : decodeU int16 a b c d = .ok (u : Int) := by
  obtain ⟨_, _, _, _, he, h1, h2⟩ := hex4_split hh
  simp only [List.cons.injEq, and_true] at he
  obtain ⟨rfl, rfl, rfl, rfl⟩ := he
  simp [decodeU, h1, h2, hi _ _ hh]

theorem backslash_short {e : Char} {u : Nat} (h : (e, u) ∈ shortEscapes) :
    backslash e = some u ∧ e ≠ 'u' := by
  simp only [shortEscapes, List.mem_cons, Prod.mk.injEq, List.not_mem_nil, or_false] at h
  rcases h with ⟨rfl, rfl⟩ | ⟨rfl, rfl⟩ | ⟨rfl, rfl⟩ | ⟨rfl, rfl⟩ | ⟨rfl, rfl⟩ | ⟨rfl, rfl⟩ |
    ⟨rfl, rfl⟩ | ⟨rfl, rfl⟩ <;> decide

theorem consText_ok (u : Nat) (t : JText) (r : List Char) :
    consText (u : Int) (.ok (t, r)) = .ok (u :: t, r) := by
  simp [consText, show ¬ ((u : Int) < 0) by omega]

theorem pairStep_unit {int16 : List Char → Option Int} (hi : ReadsHex int16) {u : Nat} {s : List Char}
    {t : JText} (hn : ¬ (HighSurrogate u ∧ StartsLow s)) (hc : Chars s t) (r : List Char) :
    pairStep int16 (u : Int) (s ++ '"' :: r) = .ok ((u : Int), 0) := by
  unfold pairStep
  split
  · rename_i hcond
    obtain ⟨h1, h2, h3⟩ := hcond
    have hu : HighSurrogate u := ⟨by omega, by omega⟩
    have key : ∀ (h : List Char) (v : Nat) (s' : List Char), s = '\\' :: 'u' :: (h ++ s') → Hex4 h v →
        (match (s ++ '"' :: r).drop 2 with
          | a :: b :: c :: d :: _ =>
            match decodeU int16 a b c d with
            | .error e => .error e
            | .ok uni2 =>
              if 0xdc00 ≤ uni2 ∧ uni2 ≤ 0xdfff then
                .ok (0x10000 + (((u : Int) - 0xd800) * 1024 + (uni2 - 0xdc00)), 6)
              else .ok ((u : Int), 0)
          | _ => .error (.cfn "Invalid \\uXXXX escape") : JM (Int × Nat)) = .ok ((u : Int), 0) := by
      intro h v s' hs hh
      have hlow : ¬ LowSurrogate v := fun hl => hn ⟨hu, h, v, s', hs, hh, hl⟩
      obtain ⟨a, b, c, d, rfl, _, _⟩ := hex4_split hh
      subst hs
      simp only [List.cons_append, List.nil_append, List.drop_succ_cons, List.drop_zero,
        decodeU_hex hi hh]
      rw [if_neg]
      intro ⟨ha, hb⟩
      exact hlow ⟨by omega, by omega⟩
    cases hc with
    | nil => simp at h3
    | plain _ hb _ _ => simp at h3; exact absurd h3.1 hb
    | short he _ =>
      have := (backslash_short he).2
      simp at h3; exact absurd h3 this
    | unit hh _ _ => exact key _ _ _ rfl hh
    | pair hh _ _ _ _ => exact key _ _ _ rfl hh
  · rfl

theorem scanString_chars {int16 : List Char → Option Int} (hi : ReadsHex int16) {s : List Char} {t : JText}
    (h : Chars s t) : ∀ r, scanString int16 (s ++ '"' :: r) = .ok (t, r) := by
  induction h with
  | nil => intro r; rw [scanString.eq_def]; rfl
  | @plain c s t h1 h2 h3 _ ih =>
    intro r
    rw [List.cons_append, scanString.eq_def]
    dsimp only
    rw [if_neg h1, if_neg h2, if_neg (by omega), ih r]
    exact consText_ok _ _ _
  | @short e u s t he _ ih =>
    intro r
    obtain ⟨hb, hne⟩ := backslash_short he
    rw [List.cons_append, List.cons_append, scanString.eq_def]
    simp only [show ¬ ('\\' = '"') by decide, if_false, if_true, hne, hb, ih r]
    exact consText_ok _ _ _
  | @unit h u s t hh hn hc ih =>
    intro r
    have hp := pairStep_unit hi hn hc r
    obtain ⟨a, b, c, d, rfl, _, _⟩ := hex4_split hh
    simp only [List.cons_append, List.nil_append]
    rw [scanString.eq_def]
    simp only [show ¬ ('\\' = '"') by decide, if_false, if_true, decodeU_hex hi hh, hp,
      List.drop_zero, ih r]
    exact consText_ok _ _ _
  | @pair h u h' u' s t hh hu hh' hl hc ih =>
    intro r
    obtain ⟨a, b, c, d, rfl, _, _⟩ := hex4_split hh
    obtain ⟨a', b', c', d', rfl, _, _⟩ := hex4_split hh'
    obtain ⟨hu1, hu2⟩ := hu
    obtain ⟨hl1, hl2⟩ := hl
    have hp : pairStep int16 (u : Int) ('\\' :: 'u' :: a' :: b' :: c' :: d' :: (s ++ '"' :: r)) =
        .ok (((0x10000 + (u - 0xd800) * 0x400 + (u' - 0xdc00) : Nat) : Int), 6) := by
      unfold pairStep
      rw [if_pos ⟨by omega, by omega, rfl⟩]
      simp only [List.drop_succ_cons, List.drop_zero, decodeU_hex hi hh']
      rw [if_pos ⟨by omega, by omega⟩]
      congr 2
      omega
    simp only [List.cons_append, List.nil_append]
    rw [scanString.eq_def]
    simp only [show ¬ ('\\' = '"') by decide, if_false, if_true, decodeU_hex hi hh, hp,
      List.drop_succ_cons, List.drop_zero, ih r]
    exact consText_ok _ _ _

theorem consText_length {u : Int} {x : JM (JText × List Char)} {t : JText} {r : List Char}
    (h : consText u x = .ok (t, r)) : ∃ t', x = .ok (t', r) := by
  unfold consText at h
  split at h
  · simp at h
  · split at h
    · simp only [Except.ok.injEq, Prod.mk.injEq] at h
      exact ⟨_, by rw [h.2]⟩
    · simp at h

theorem scanString_length {int16 : List Char → Option Int} :
    ∀ (n : Nat) (s : List Char), s.length ≤ n → ∀ {t r}, scanString int16 s = .ok (t, r) →
      r.length < s.length := by
  intro n
  induction n with
  | zero =>
    intro s hs t r h
    have : s = [] := List.length_eq_zero_iff.1 (by omega)
    subst this
    simp [scanString] at h
  | succ n ih =>
    intro s hs t r h
    cases s with
    | nil => simp [scanString] at h
    | cons c s =>
      have hl : s.length ≤ n := by simpa using hs
      rw [scanString.eq_def] at h
      dsimp only at h
      split at h
      · simp only [Except.ok.injEq, Prod.mk.injEq] at h
        rw [← h.2]; simp
      · split at h
        · split at h
          · simp at h
          · rename_i e r1
            split at h
            · split at h
              · split at h
                · simp at h
                · split at h
                  · simp at h
                  · obtain ⟨t', ht⟩ := consText_length h
                    have := ih _ (by simp at hl ⊢; omega) ht
                    simp at this ⊢; omega
              · simp at h
            · split at h
              · simp at h
              · obtain ⟨t', ht⟩ := consText_length h
                have := ih _ (by simp at hl; omega) ht
                simp; omega
        · split at h
          · simp at h
          · obtain ⟨t', ht⟩ := consText_length h
            have := ih _ hl ht
            simp; omega

/-- `scanString` raises no `StopIteration` and never runs out of fuel. -/
theorem scanString_err {int16 : List Char → Option Int} :
    ∀ (n : Nat) (s : List Char), s.length ≤ n → ∀ {e}, scanString int16 s = .error e →
      e ≠ .fuel ∧ e ≠ .stop := by
  have hdec : ∀ {a b c d e}, decodeU int16 a b c d = .error e → e ≠ .fuel ∧ e ≠ .stop := by
    intro a b c d e h
    unfold decodeU at h
    split at h
    · cases h; simp
    · split at h
      · simp at h
      · cases h; simp
  have hpair : ∀ {u r e}, pairStep int16 u r = .error e → e ≠ .fuel ∧ e ≠ .stop := by
    intro u r e h
    unfold pairStep at h
    split at h
    · split at h
      · split at h
        · rename_i he
          cases h
          exact hdec he
        · split at h <;> simp at h
      · cases h; simp
    · simp at h
  have hcons : ∀ {u x e}, (∀ {e}, x = .error e → e ≠ JErr.fuel ∧ e ≠ JErr.stop) →
      consText u x = .error e → e ≠ .fuel ∧ e ≠ .stop := by
    intro u x e hx h
    unfold consText at h
    split at h
    · cases h; simp
    · split at h
      · simp at h
      · cases h; exact hx rfl
  intro n
  induction n with
  | zero =>
    intro s hs e h
    have : s = [] := List.length_eq_zero_iff.1 (by omega)
    subst this
    simp [scanString] at h
    subst h; simp
  | succ n ih =>
    intro s hs e h
    cases s with
    | nil => simp [scanString] at h; subst h; simp
    | cons c s =>
      have hl : s.length ≤ n := by simpa using hs
      rw [scanString.eq_def] at h
      dsimp only at h
      split at h
      · simp at h
      · split at h
        · split at h
          · cases h; simp
          · split at h
            · split at h
              · split at h
                · rename_i he
                  cases h
                  exact hdec he
                · split at h
                  · rename_i he
                    cases h
                    exact hpair he
                  · exact hcons (ih _ (by simp at hl ⊢; omega)) h
              · cases h; simp
            · split at h
              · cases h; simp
              · exact hcons (ih _ (by simp at hl; omega)) h
        · split at h
          · cases h; simp
          · exact hcons (ih _ hl) h

/-! ### Numbers -/

theorem isDigit_iff (c : Char) : c.isDigit = true ↔ '0' ≤ c ∧ c ≤ '9' := by
  simp [Char.isDigit, Char.le_def]

/-- What may follow a value in a document. -/
def Ends (r : List Char) : Prop :=
  ∀ c, r.head? = some c → isJsonWs c = true ∨ c = ',' ∨ c = ']' ∨ c = '}'

theorem ends_not {r : List Char} (h : Ends r) :
    (∀ c, r.head? = some c → c.isDigit = false ∧ c ≠ '.' ∧ c ≠ 'e' ∧ c ≠ 'E') := by
  intro c hc
  have := h c hc
  rw [isJsonWs_iff] at this
  rcases this with (rfl | rfl | rfl | rfl) | rfl | rfl | rfl <;> decide

theorem digits_append {d r : List Char} (hd : ∀ c ∈ d, '0' ≤ c ∧ c ≤ '9')
    (hr : ∀ c, r.head? = some c → c.isDigit = false) : digits (d ++ r) = (d, r) := by
  unfold digits
  induction d with
  | nil =>
    cases r with
    | nil => rfl
    | cons c r => simp [hr c rfl]
  | cons c d ih =>
    have hc : c.isDigit = true := (isDigit_iff c).2 (hd c (by simp))
    have := ih (fun x hx => hd x (by simp [hx]))
    simp only [Prod.mk.injEq] at this
    simp [hc, this.1, this.2]

theorem parseNat_eq (ds : List Char) : ∀ n, ds.foldl (fun n c => 10 * n + (c.toNat - 48)) n =
    n * 10 ^ ds.length + decimal ds := by
  induction ds with
  | nil => intro n; simp [decimal]
  | cons c ds ih =>
    intro n
    rw [List.foldl_cons, ih]
    simp only [decimal, List.length_cons, pow_succ, show '0'.toNat = 48 from rfl]
    ring

theorem digit_ne_minus {c : Char} (h : '0' ≤ c ∧ c ≤ '9') : c ≠ '-' := by
  rintro rfl
  revert h
  decide

theorem parseInt_nat {ds : List Char} (h : Digits ds) : parseInt ds = (decimal ds : Int) := by
  obtain ⟨hne, hd⟩ := h
  cases ds with
  | nil => simp at hne
  | cons c ds =>
    have hc := digit_ne_minus (hd c (by simp))
    unfold parseInt
    split
    · rename_i heq
      simp only [List.cons.injEq] at heq
      exact absurd heq.1 hc
    · dsimp only; rw [parseNat_eq]; simp

theorem parseInt_neg (ds : List Char) : parseInt ('-' :: ds) = -(decimal ds : Int) := by
  simp [parseInt, parseNat_eq]

theorem matchInteger_pos {s r : List Char} (h : IntPart s)
    (hr : ∀ c, r.head? = some c → c.isDigit = false) : matchInteger (s ++ r) = some (s, r) := by
  obtain ⟨⟨hne, hd⟩, hz⟩ := h
  cases s with
  | nil => simp at hne
  | cons c s =>
    have hc := digit_ne_minus (hd c (by simp))
    unfold matchInteger
    rw [List.cons_append]
    split
    rename_i heq
    split at heq
    · rename_i h2
      simp only [List.cons.injEq] at h2
      exact absurd h2.1 hc
    · cases heq
      dsimp only
      split
      · rename_i h0
        subst h0
        rcases hz with hz | hz
        · simp only [List.cons.injEq, true_and] at hz
          subst hz; rfl
        · simp at hz
      · rw [if_pos ((isDigit_iff c).2 (hd c (by simp))), digits_append (fun x hx => hd x (by simp [hx])) hr]
        rfl

theorem matchInteger_neg {s r : List Char} (h : IntPart s)
    (hr : ∀ c, r.head? = some c → c.isDigit = false) :
    matchInteger ('-' :: (s ++ r)) = some ('-' :: s, r) := by
  obtain ⟨⟨hne, hd⟩, hz⟩ := h
  cases s with
  | nil => simp at hne
  | cons c s =>
    unfold matchInteger
    simp only [List.cons_append]
    split
    · rename_i h0
      subst h0
      rcases hz with hz | hz
      · simp only [List.cons.injEq, true_and] at hz
        subst hz; rfl
      · simp at hz
    · rw [if_pos ((isDigit_iff c).2 (hd c (by simp))), digits_append (fun x hx => hd x (by simp [hx])) hr]
      rfl

theorem matchFrac_none {r : List Char} (h : r.head? ≠ some '.') : matchFrac r = ([], r) := by
  unfold matchFrac
  split
  · simp at h
  · rfl

theorem matchFrac_some {d r : List Char} (hd : Digits d)
    (hr : ∀ c, r.head? = some c → c.isDigit = false) : matchFrac ('.' :: (d ++ r)) = ('.' :: d, r) := by
  simp [matchFrac, digits_append hd.2 hr, hd.1]

theorem matchExp_none {r : List Char} (h : ∀ c, r.head? = some c → c ≠ 'e' ∧ c ≠ 'E') :
    matchExp r = ([], r) := by
  unfold matchExp
  split
  · rfl
  · rename_i e r
    obtain ⟨h1, h2⟩ := h e rfl
    simp [h1, h2]

theorem matchExp_some {e : Char} {sg d r : List Char} (he : e = 'e' ∨ e = 'E')
    (hs : sg = [] ∨ sg = ['+'] ∨ sg = ['-']) (hd : Digits d)
    (hr : ∀ c, r.head? = some c → c.isDigit = false) :
    matchExp (e :: (sg ++ d ++ r)) = (e :: (sg ++ d), r) := by
  unfold matchExp
  dsimp only
  rw [if_pos he]
  rcases hs with rfl | rfl | rfl
  · rw [List.nil_append]
    obtain ⟨hne, hd'⟩ := hd
    cases d with
    | nil => simp at hne
    | cons c d =>
      have hc := hd' c (by simp)
      split
      · rename_i h2
        simp only [List.cons_append, List.cons.injEq] at h2
        obtain ⟨rfl, _⟩ := h2
        exact absurd hc (by decide)
      · rename_i h2
        simp only [List.cons_append, List.cons.injEq] at h2
        obtain ⟨rfl, _⟩ := h2
        exact absurd hc (by decide)
      · dsimp only
        rw [digits_append hd' hr]
        simp
  · simp [digits_append hd.2 hr, hd.1]
  · simp [digits_append hd.2 hr, hd.1]

theorem matchNumber_number {s : List Char} {v : JVal} (h : Number s v) {r : List Char} (hr : Ends r) :
    matchNumber (s ++ r) = some (v, r) := by
  have hr' := ends_not hr
  have h1 : ∀ c, r.head? = some c → c.isDigit = false := fun c hc => (hr' c hc).1
  have h2 : r.head? ≠ some '.' := fun hc => (hr' _ hc).2.1 rfl
  have h3 : ∀ c, r.head? = some c → c ≠ 'e' ∧ c ≠ 'E' := fun c hc => (hr' c hc).2.2
  cases h with
  | nat hs =>
    simp [matchNumber, matchInteger_pos hs h1, matchFrac_none h2, matchExp_none h3, parseInt_nat hs.1]
  | neg hs =>
    simp [matchNumber, matchInteger_neg hs h1, matchFrac_none h2, matchExp_none h3, parseInt_neg]
  | @flt sg i f e hsg hi hf he hne =>
    have hexp : matchExp (e ++ r) = (e, r) := by
      rcases he with rfl | ⟨x, sg, d, hx, hsg, hd, rfl⟩
      · exact matchExp_none h3
      · have := matchExp_some hx hsg hd h1
        simpa using this
    have hehead : ∀ c, (e ++ r).head? = some c → c.isDigit = false ∧ c ≠ '.' := by
      intro c hc
      rcases he with rfl | ⟨x, sg, d, hx, hsg, hd, rfl⟩
      · exact ⟨h1 c hc, (hr' c hc).2.1⟩
      · simp at hc
        subst hc
        rcases hx with rfl | rfl <;> decide
    have hfrac : matchFrac (f ++ (e ++ r)) = (f, e ++ r) := by
      rcases hf with rfl | ⟨d, hd, rfl⟩
      · exact matchFrac_none (fun hc => (hehead _ hc).2 rfl)
      · exact matchFrac_some hd (fun c hc => (hehead c hc).1)
    have hfhead : ∀ c, (f ++ (e ++ r)).head? = some c → c.isDigit = false := by
      intro c hc
      rcases hf with rfl | ⟨d, hd, rfl⟩
      · exact (hehead c hc).1
      · simp at hc
        subst hc; decide
    have hint : matchInteger (sg ++ i ++ f ++ e ++ r) = some (sg ++ i, f ++ (e ++ r)) := by
      rcases hsg with rfl | rfl
      · have := matchInteger_pos hi hfhead
        simpa using this
      · have := matchInteger_neg hi hfhead
        simpa using this
    unfold matchNumber
    rw [hint]
    simp only [hfrac, hexp]
    rw [if_neg (by simpa using hne)]

theorem number_head {s : List Char} {v : JVal} (h : Number s v) :
    ∃ c s', s = c :: s' ∧ (c = '-' ∨ ('0' ≤ c ∧ c ≤ '9')) := by
  have hp : ∀ {i : List Char}, IntPart i → ∃ c s', i = c :: s' ∧ ('0' ≤ c ∧ c ≤ '9') := by
    intro i hi
    cases i with
    | nil => exact absurd rfl hi.1.1
    | cons c i => exact ⟨c, i, rfl, hi.1.2 c (by simp)⟩
  cases h with
  | nat hs => obtain ⟨c, s', rfl, hc⟩ := hp hs; exact ⟨c, s', rfl, .inr hc⟩
  | neg hs => exact ⟨'-', _, rfl, .inl rfl⟩
  | flt hsg hi _ _ _ =>
    rcases hsg with rfl | rfl
    · obtain ⟨c, s', rfl, hc⟩ := hp hi
      exact ⟨c, _, rfl, .inr hc⟩
    · exact ⟨'-', _, rfl, .inl rfl⟩

theorem digit_bounds {c : Char} (h : '0' ≤ c ∧ c ≤ '9') : 48 ≤ c.toNat ∧ c.toNat ≤ 57 := by
  obtain ⟨h1, h2⟩ := h
  rw [Char.le_def] at h1 h2
  exact ⟨h1, h2⟩

theorem numChar_ne {c : Char} (h : c = '-' ∨ ('0' ≤ c ∧ c ≤ '9')) (d : Char)
    (hd : d ≠ '-') (hd' : d.toNat < 48 ∨ 57 < d.toNat) : c ≠ d := by
  rcases h with rfl | h
  · exact fun h => hd h.symm
  · rintro rfl
    have := digit_bounds h
    omega

theorem dropWord_head_ne {w s : List Char} {a c : Char} (h : c ≠ a) : dropWord (a :: w) (c :: s) = none := by
  simp [dropWord, List.isPrefixOf, beq_iff_eq, h.symm]

theorem scanAtom_number {s : List Char} {v : JVal} (h : Number s v) {r : List Char} (hr : Ends r) :
    scanAtom (s ++ r) = .ok (v, r) := by
  have hm := matchNumber_number h hr
  obtain ⟨c, s', rfl, hc⟩ := number_head h
  unfold scanAtom
  rw [List.cons_append] at hm ⊢
  rw [show "null".toList = ['n', 'u', 'l', 'l'] from rfl, show "true".toList = ['t', 'r', 'u', 'e'] from rfl,
    show "false".toList = ['f', 'a', 'l', 's', 'e'] from rfl,
    dropWord_head_ne (numChar_ne hc 'n' (by decide) (by decide)),
    dropWord_head_ne (numChar_ne hc 't' (by decide) (by decide)),
    dropWord_head_ne (numChar_ne hc 'f' (by decide) (by decide)), hm]

/-! ### Values without duplicate keys and null members -/

/-- Neither a duplicate key nor a null member anywhere. -/
def Clean (v : JVal) : Prop := ¬ DuplicateKey v ∧ ¬ NullMember v

theorem clean_atom {v : JVal} (h1 : ∀ vs, v ≠ .arr vs) (h2 : ∀ kvs, v ≠ .obj kvs) : Clean v := by
  constructor
  · rintro ⟨kvs, hi, _⟩
    cases hi with
    | here => exact h2 _ rfl
    | item _ _ => exact h1 _ rfl
    | member _ _ => exact h2 _ rfl
  · rintro ⟨kvs, k, hi, _⟩
    cases hi with
    | here => exact h2 _ rfl
    | item _ _ => exact h1 _ rfl
    | member _ _ => exact h2 _ rfl

theorem clean_arr (vs : List JVal) : Clean (.arr vs) ↔ ∀ v ∈ vs, Clean v := by
  constructor
  · rintro ⟨h1, h2⟩ v hv
    constructor
    · rintro ⟨kvs, hi, hn⟩; exact h1 ⟨kvs, .item hv hi, hn⟩
    · rintro ⟨kvs, k, hi, hn⟩; exact h2 ⟨kvs, k, .item hv hi, hn⟩
  · intro h
    constructor
    · rintro ⟨kvs, hi, hn⟩
      cases hi with
      | item hv hi => exact (h _ hv).1 ⟨kvs, hi, hn⟩
    · rintro ⟨kvs, k, hi, hn⟩
      cases hi with
      | item hv hi => exact (h _ hv).2 ⟨kvs, k, hi, hn⟩

theorem clean_obj (kvs : List (JText × JVal)) : Clean (.obj kvs) ↔
    (kvs.map Prod.fst).Nodup ∧ (∀ k, (k, JVal.null) ∉ kvs) ∧ ∀ p ∈ kvs, Clean p.2 := by
  constructor
  · rintro ⟨h1, h2⟩
    refine ⟨?_, fun k hk => h2 ⟨kvs, k, .here _, hk⟩, fun p hp => ⟨?_, ?_⟩⟩
    · by_contra hn; exact h1 ⟨kvs, .here _, hn⟩
    · rintro ⟨kvs', hi, hn⟩; exact h1 ⟨kvs', .member (k := p.1) hp hi, hn⟩
    · rintro ⟨kvs', k, hi, hn⟩; exact h2 ⟨kvs', k, .member (k := p.1) hp hi, hn⟩
  · rintro ⟨h1, h2, h3⟩
    constructor
    · rintro ⟨kvs', hi, hn⟩
      cases hi with
      | here => exact hn h1
      | member hv hi => exact (h3 _ hv).1 ⟨kvs', hi, hn⟩
    · rintro ⟨kvs', k, hi, hn⟩
      cases hi with
      | here => exact h2 k hn
      | member hv hi => exact (h3 _ hv).2 ⟨kvs', k, hi, hn⟩

theorem checkDuplicates_ok (kvs : List (JText × JVal)) : ∀ seen, checkDuplicates kvs seen = .ok () ↔
    (kvs.map Prod.fst).Nodup ∧ (∀ k, (k, JVal.null) ∉ kvs) ∧ ∀ k ∈ kvs.map Prod.fst, k ∉ seen := by
  induction kvs with
  | nil => intro seen; simp [checkDuplicates]
  | cons p kvs ih =>
    obtain ⟨k, v⟩ := p
    intro seen
    unfold checkDuplicates
    split
    · constructor
      · intro h; simp at h
      · rintro ⟨_, h, _⟩; exact absurd (by simp) (h k)
    · rename_i hv
      have hv' : ∀ k', ¬ ((k', JVal.null) = (k, v)) := by
        rintro k' h
        cases h
        exact hv rfl
      split
      · rename_i hs
        constructor
        · intro h; simp at h
        · rintro ⟨_, _, h⟩; exact absurd hs (h k (by simp))
      · rename_i hs
        rw [ih]
        simp only [List.map_cons, List.nodup_cons, List.mem_cons, not_or, forall_eq_or_imp]
        constructor
        · rintro ⟨h1, h2, h3⟩
          exact ⟨⟨fun hk => (h3 k hk).1 rfl, h1⟩, fun k' => ⟨hv' k', h2 k'⟩, hs, fun k' hk' => (h3 k' hk').2⟩
        · rintro ⟨⟨h1, h2⟩, h3, _, h5⟩
          refine ⟨h2, fun k' => (h3 k').2, fun k' hk' => ⟨?_, h5 k' hk'⟩⟩
          rintro rfl
          exact h1 hk'

theorem checkDuplicates_err (kvs : List (JText × JVal)) : ∀ seen e, checkDuplicates kvs seen = .error e →
    ∃ m, e = .cfn m := by
  induction kvs with
  | nil => intro seen e h; simp [checkDuplicates] at h
  | cons p kvs ih =>
    obtain ⟨k, v⟩ := p
    intro seen e h
    unfold checkDuplicates at h
    split at h
    · cases h; exact ⟨_, rfl⟩
    · split at h
      · cases h; exact ⟨_, rfl⟩
      · exact ih _ _ h

theorem finishObject_ok {kvs : List (JText × JVal)} {r r' : List Char} {v : JVal}
    (h : finishObject kvs r = .ok (v, r')) :
    v = .obj kvs ∧ r' = r ∧ (kvs.map Prod.fst).Nodup ∧ ∀ k, (k, JVal.null) ∉ kvs := by
  unfold finishObject at h
  split at h
  · rename_i hc
    have := (checkDuplicates_ok kvs []).1 hc
    cases h
    exact ⟨rfl, rfl, this.1, this.2.1⟩
  · simp at h

theorem finishObject_good {kvs : List (JText × JVal)} (h1 : (kvs.map Prod.fst).Nodup)
    (h2 : ∀ k, (k, JVal.null) ∉ kvs) (r : List Char) : finishObject kvs r = .ok (.obj kvs, r) := by
  unfold finishObject
  rw [(checkDuplicates_ok kvs []).2 ⟨h1, h2, by simp⟩]

theorem finishObject_bad {kvs : List (JText × JVal)}
    (h : ¬ ((kvs.map Prod.fst).Nodup ∧ ∀ k, (k, JVal.null) ∉ kvs)) (r : List Char) :
    ∃ m, finishObject kvs r = .error (.cfn m) := by
  unfold finishObject
  cases hc : checkDuplicates kvs [] with
  | ok u =>
    have := (checkDuplicates_ok kvs []).1 hc
    exact absurd ⟨this.1, this.2.1⟩ h
  | error e =>
    obtain ⟨m, rfl⟩ := checkDuplicates_err _ _ _ hc
    exact ⟨m, rfl⟩

/-! ### The scanner on texts of the grammar -/

theorem gram_value_head {s : List Char} {v : JVal} (h : Gram s (.value v)) :
    ∃ c s', s = c :: s' ∧ isJsonWs c = false ∧ c ≠ ']' ∧ c ≠ Char.ofNat 0xfeff := by
  cases h with
  | null => exact ⟨_, _, rfl, by decide, by decide, by decide⟩
  | true => exact ⟨_, _, rfl, by decide, by decide, by decide⟩
  | false => exact ⟨_, _, rfl, by decide, by decide, by decide⟩
  | number hn =>
    obtain ⟨c, s', rfl, hc⟩ := number_head hn
    refine ⟨c, s', rfl, ?_, numChar_ne hc _ (by decide) (by decide), numChar_ne hc _ (by decide) (by decide)⟩
    rw [Bool.eq_false_iff]
    intro hw
    rw [isJsonWs_iff] at hw
    rcases hw with hw | hw | hw | hw <;>
      exact numChar_ne hc _ (by decide) (by decide) hw
  | string _ => exact ⟨_, _, rfl, by decide, by decide, by decide⟩
  | emptyArr _ => exact ⟨_, _, rfl, by decide, by decide, by decide⟩
  | arr _ => exact ⟨_, _, rfl, by decide, by decide, by decide⟩
  | emptyObj _ => exact ⟨_, _, rfl, by decide, by decide, by decide⟩
  | obj _ => exact ⟨_, _, rfl, by decide, by decide, by decide⟩

theorem ends_blank {w r : List Char} (hw : Blank w) (hr : Ends r) : Ends (w ++ r) := by
  cases w with
  | nil => exact hr
  | cons c w =>
    intro d hd
    simp only [List.cons_append, List.head?_cons, Option.some.injEq] at hd
    subst hd
    exact .inl ((isJsonWs_iff _).2 (hw _ (by simp)))

theorem ends_cons {c : Char} (r : List Char) (h : c = ',' ∨ c = ']' ∨ c = '}') : Ends (c :: r) := by
  intro d hd
  simp only [List.head?_cons, Option.some.injEq] at hd
  subst hd
  exact .inr h

/-- What scanning a piece of grammatical text gives. -/
def ScanSpec (int16 : List Char → Option Int) (s : List Char) : Node → Prop
  | .value v => ∀ n r, 2 * s.length + 1 ≤ n → Ends r →
      (Clean v → scanOnce int16 n (s ++ r) = .ok (v, r)) ∧
      (¬ Clean v → ∃ m, scanOnce int16 n (s ++ r) = .error (.cfn m))
  | .items vs => ∀ n r, 2 * s.length + 2 ≤ n → ∃ c s', skipWs (s ++ ']' :: r) = c :: s' ∧ c ≠ ']' ∧
      ((∀ v ∈ vs, Clean v) → scanItems int16 n (c :: s') = .ok (vs, r)) ∧
      (¬ (∀ v ∈ vs, Clean v) → ∃ m, scanItems int16 n (c :: s') = .error (.cfn m))
  | .members kvs => ∀ n r, 2 * s.length + 2 ≤ n → ∃ s', skipWs (s ++ '}' :: r) = '"' :: s' ∧
      ((∀ p ∈ kvs, Clean p.2) → scanMembers int16 n s' = .ok (kvs, r)) ∧
      (¬ (∀ p ∈ kvs, Clean p.2) → ∃ m, scanMembers int16 n s' = .error (.cfn m))

theorem scan_gram {int16 : List Char → Option Int} (hi : ReadsHex int16) {s : List Char} {nd : Node}
    (h : Gram s nd) : ScanSpec int16 s nd := by
  induction h with
  | null =>
    intro n r hn _
    obtain ⟨n, rfl⟩ : ∃ k, n = k + 1 := ⟨n - 1, by simp at hn; omega⟩
    exact ⟨fun _ => by simp [scanOnce, scanAtom, dropWord, List.isPrefixOf],
      fun hc => absurd (clean_atom (by simp) (by simp)) hc⟩
  | true =>
    intro n r hn _
    obtain ⟨n, rfl⟩ : ∃ k, n = k + 1 := ⟨n - 1, by simp at hn; omega⟩
    exact ⟨fun _ => by simp [scanOnce, scanAtom, dropWord, List.isPrefixOf],
      fun hc => absurd (clean_atom (by simp) (by simp)) hc⟩
  | false =>
    intro n r hn _
    obtain ⟨n, rfl⟩ : ∃ k, n = k + 1 := ⟨n - 1, by simp at hn; omega⟩
    exact ⟨fun _ => by simp [scanOnce, scanAtom, dropWord, List.isPrefixOf],
      fun hc => absurd (clean_atom (by simp) (by simp)) hc⟩
  | @number s v hnum =>
    intro n r hn hr
    obtain ⟨n, rfl⟩ : ∃ k, n = k + 1 := ⟨n - 1, by omega⟩
    refine ⟨fun _ => ?_, fun hc => absurd (clean_atom ?_ ?_) hc⟩
    · have ha := scanAtom_number hnum hr
      obtain ⟨c, s', rfl, hc⟩ := number_head hnum
      rw [List.cons_append] at ha ⊢
      unfold scanOnce
      dsimp only
      rw [if_neg (numChar_ne hc _ (by decide) (by decide)),
        if_neg (numChar_ne hc _ (by decide) (by decide)),
        if_neg (numChar_ne hc _ (by decide) (by decide)), ha]
    · cases hnum <;> simp
    · cases hnum <;> simp
  | @string s t hs =>
    intro n r hn _
    obtain ⟨n, rfl⟩ : ∃ k, n = k + 1 := ⟨n - 1, by omega⟩
    refine ⟨fun _ => ?_, fun hc => absurd (clean_atom (by simp) (by simp)) hc⟩
    rw [List.cons_append, List.append_assoc, List.singleton_append]
    unfold scanOnce
    dsimp only
    rw [if_pos rfl, scanString_chars hi hs r]
  | @emptyArr w hw =>
    intro n r hn _
    obtain ⟨n, rfl⟩ : ∃ k, n = k + 1 := ⟨n - 1, by omega⟩
    refine ⟨fun _ => ?_, fun hc => absurd ((clean_arr []).2 (by simp)) hc⟩
    rw [List.cons_append, List.append_assoc, List.singleton_append]
    unfold scanOnce
    dsimp only
    rw [if_neg (by decide), if_neg (by decide), if_pos rfl, skipWs_blank hw, skipWs_cons (by decide)]
    rfl
  | @arr s vs _ ih =>
    intro n r hn _
    obtain ⟨n, rfl⟩ : ∃ k, n = k + 1 := ⟨n - 1, by omega⟩
    obtain ⟨c, s', hsk, hc, hg, hb⟩ := ih n r (by simp at hn; omega)
    rw [List.cons_append, List.append_assoc, List.singleton_append]
    unfold scanOnce
    dsimp only
    rw [if_neg (by decide), if_neg (by decide), if_pos rfl, hsk]
    dsimp only
    rw [if_neg hc, clean_arr]
    refine ⟨fun h => ?_, fun h => ?_⟩
    · rw [hg h]
    · obtain ⟨m, hm⟩ := hb h
      exact ⟨m, by rw [hm]⟩
  | @emptyObj w hw =>
    intro n r hn _
    obtain ⟨n, rfl⟩ : ∃ k, n = k + 1 := ⟨n - 1, by omega⟩
    refine ⟨fun _ => ?_, fun hc => absurd ((clean_obj []).2 (by simp)) hc⟩
    rw [List.cons_append, List.append_assoc, List.singleton_append]
    unfold scanOnce
    dsimp only
    rw [if_neg (by decide), if_pos rfl, skipWs_blank hw, skipWs_cons (by decide)]
    rfl
  | @obj s kvs _ ih =>
    intro n r hn _
    obtain ⟨n, rfl⟩ : ∃ k, n = k + 1 := ⟨n - 1, by omega⟩
    obtain ⟨s', hsk, hg, hb⟩ := ih n r (by simp at hn; omega)
    rw [List.cons_append, List.append_assoc, List.singleton_append]
    unfold scanOnce
    dsimp only
    rw [if_neg (by decide), if_pos rfl, hsk]
    dsimp only
    rw [if_neg (by decide), if_pos rfl, clean_obj]
    refine ⟨fun ⟨h1, h2, h3⟩ => ?_, fun h => ?_⟩
    · rw [hg h3]
      exact finishObject_good h1 h2 r
    · by_cases h3 : ∀ p ∈ kvs, Clean p.2
      · rw [hg h3]
        exact finishObject_bad (fun ⟨h1, h2⟩ => h ⟨h1, h2, h3⟩) r
      · obtain ⟨m, hm⟩ := hb h3
        exact ⟨m, by rw [hm]⟩
  | @item w s w' v hw hv hw' ih =>
    intro n r hn
    obtain ⟨n, rfl⟩ : ∃ k, n = k + 1 := ⟨n - 1, by omega⟩
    obtain ⟨c, s', rfl, hws, hc, _⟩ := gram_value_head hv
    have ih := ih n (w' ++ ']' :: r) (by simp at hn ⊢; omega) (ends_blank hw' (ends_cons _ (by simp)))
    refine ⟨c, s' ++ (w' ++ ']' :: r), ?_, hc, ?_, ?_⟩
    · simp only [List.append_assoc, List.cons_append]
      rw [skipWs_blank hw, skipWs_cons hws]
    · intro h
      have := ih.1 (h v (by simp))
      rw [List.cons_append] at this
      unfold scanItems
      rw [this]
      dsimp only
      rw [skipWs_blank hw', skipWs_cons (by decide)]
      rfl
    · intro h
      obtain ⟨m, hm⟩ := ih.2 (fun hv => h (by simpa using hv))
      rw [List.cons_append] at hm
      refine ⟨m, ?_⟩
      unfold scanItems
      rw [hm]
  | @items w s w' v r0 vs hw hv hw' _ ih ih2 =>
    intro n r hn
    obtain ⟨n, rfl⟩ : ∃ k, n = k + 1 := ⟨n - 1, by omega⟩
    obtain ⟨c, s', rfl, hws, hc, _⟩ := gram_value_head hv
    have ih := ih n (w' ++ ',' :: (r0 ++ ']' :: r)) (by simp at hn ⊢; omega)
      (ends_blank hw' (ends_cons _ (by simp)))
    obtain ⟨c2, s2, hsk, _, hg, hb⟩ := ih2 n r (by simp at hn ⊢; omega)
    refine ⟨c, s' ++ (w' ++ ',' :: (r0 ++ ']' :: r)), ?_, hc, ?_, ?_⟩
    · simp only [List.append_assoc, List.cons_append]
      rw [skipWs_blank hw, skipWs_cons hws]
    · intro h
      have := ih.1 (h v (by simp))
      rw [List.cons_append] at this
      unfold scanItems
      rw [this]
      dsimp only
      rw [skipWs_blank hw', skipWs_cons (by decide)]
      dsimp only
      rw [if_neg (by decide), if_pos rfl, hsk, hg (fun x hx => h x (by simp [hx]))]
    · intro h
      unfold scanItems
      by_cases hcv : Clean v
      · have := ih.1 hcv
        rw [List.cons_append] at this
        rw [this]
        dsimp only
        rw [skipWs_blank hw', skipWs_cons (by decide)]
        dsimp only
        obtain ⟨m, hm⟩ := hb (fun h' => h (by simpa using ⟨hcv, h'⟩))
        exact ⟨m, by rw [if_neg (by decide), if_pos rfl, hsk, hm]⟩
      · obtain ⟨m, hm⟩ := ih.2 hcv
        rw [List.cons_append] at hm
        exact ⟨m, by rw [hm]⟩
  | @member w k t w1 w2 s v w3 hw hk hw1 hw2 hv hw3 ih =>
    intro n r hn
    obtain ⟨n, rfl⟩ : ∃ k, n = k + 1 := ⟨n - 1, by omega⟩
    obtain ⟨c, s', rfl, hws, hc, _⟩ := gram_value_head hv
    have ih := ih n (w3 ++ '}' :: r) (by simp at hn ⊢; omega) (ends_blank hw3 (ends_cons _ (by simp)))
    rw [List.cons_append] at ih
    refine ⟨k ++ '"' :: (w1 ++ ':' :: (w2 ++ (c :: s' ++ (w3 ++ '}' :: r)))), ?_, ?_, ?_⟩
    · simp only [List.append_assoc, List.cons_append]
      rw [skipWs_blank hw, skipWs_cons (by decide)]
    · intro h
      unfold scanMembers
      rw [scanString_chars hi hk]
      dsimp only
      rw [skipWs_blank hw1, skipWs_cons (by decide)]
      dsimp only
      rw [if_pos rfl, skipWs_blank hw2, List.cons_append, skipWs_cons hws, ih.1 (h (t, v) (by simp))]
      dsimp only
      rw [skipWs_blank hw3, skipWs_cons (by decide)]
      rfl
    · intro h
      obtain ⟨m, hm⟩ := ih.2 (fun hv => h (by simpa using hv))
      refine ⟨m, ?_⟩
      unfold scanMembers
      rw [scanString_chars hi hk]
      dsimp only
      rw [skipWs_blank hw1, skipWs_cons (by decide)]
      dsimp only
      rw [if_pos rfl, skipWs_blank hw2, List.cons_append, skipWs_cons hws, hm]
  | @members w k t w1 w2 s v w3 r0 kvs hw hk hw1 hw2 hv hw3 _ ih ih2 =>
    intro n r hn
    obtain ⟨n, rfl⟩ : ∃ k, n = k + 1 := ⟨n - 1, by omega⟩
    obtain ⟨c, s', rfl, hws, hc, _⟩ := gram_value_head hv
    have ih := ih n (w3 ++ ',' :: (r0 ++ '}' :: r)) (by simp at hn ⊢; omega)
      (ends_blank hw3 (ends_cons _ (by simp)))
    rw [List.cons_append] at ih
    obtain ⟨s2, hsk, hg, hb⟩ := ih2 n r (by simp at hn ⊢; omega)
    refine ⟨k ++ '"' :: (w1 ++ ':' :: (w2 ++ (c :: s' ++ (w3 ++ ',' :: (r0 ++ '}' :: r))))), ?_, ?_, ?_⟩
    · simp only [List.append_assoc, List.cons_append]
      rw [skipWs_blank hw, skipWs_cons (by decide)]
    · intro h
      unfold scanMembers
      rw [scanString_chars hi hk]
      dsimp only
      rw [skipWs_blank hw1, skipWs_cons (by decide)]
      dsimp only
      rw [if_pos rfl, skipWs_blank hw2, List.cons_append, skipWs_cons hws, ih.1 (h (t, v) (by simp))]
      dsimp only
      rw [skipWs_blank hw3, skipWs_cons (by decide)]
      dsimp only
      rw [if_neg (by decide), if_pos rfl, hsk]
      dsimp only
      rw [if_pos rfl, hg (fun x hx => h x (by simp [hx]))]
    · intro h
      unfold scanMembers
      rw [scanString_chars hi hk]
      dsimp only
      rw [skipWs_blank hw1, skipWs_cons (by decide)]
      dsimp only
      rw [if_pos rfl, skipWs_blank hw2, List.cons_append, skipWs_cons hws]
      by_cases hcv : Clean v
      · rw [ih.1 hcv]
        dsimp only
        rw [skipWs_blank hw3, skipWs_cons (by decide)]
        dsimp only
        rw [if_neg (by decide), if_pos rfl, hsk]
        dsimp only
        obtain ⟨m, hm⟩ := hb (fun h' => h (by
          intro p hp
          rcases List.mem_cons.1 hp with rfl | hp
          · exact hcv
          · exact h' p hp))
        exact ⟨m, by rw [if_pos rfl, hm]⟩
      · obtain ⟨m, hm⟩ := ih.2 hcv
        exact ⟨m, by rw [hm]⟩

/-! ### The scanner on arbitrary text -/

theorem digits_length (s : List Char) : (digits s).2.length ≤ s.length :=
  List.IsSuffix.length_le (List.dropWhile_suffix _)

theorem matchInteger_length {s i r : List Char} (h : matchInteger s = some (i, r)) :
    r.length < s.length := by
  unfold matchInteger at h
  split at h
  rename_i sign r0 heq
  have hl : r0.length ≤ s.length := by
    split at heq <;> cases heq <;> simp
  split at h
  · simp at h
  · rename_i c r'
    split at h
    · cases h; simp at hl; omega
    · split at h
      · cases h
        have := digits_length r'
        simp at hl; omega
      · simp at h

theorem matchFrac_length (s : List Char) : (matchFrac s).2.length ≤ s.length := by
  unfold matchFrac
  split
  · rename_i r
    split
    · simp
    · have := digits_length r
      simp; omega
  · simp

theorem matchExp_length (s : List Char) : (matchExp s).2.length ≤ s.length := by
  unfold matchExp
  split
  · simp
  · rename_i e r
    split
    · split
      rename_i sign r' heq
      have hl : r'.length ≤ r.length := by
        split at heq <;> cases heq <;> simp
      split
      · simp
      · have := digits_length r'
        simp; omega
    · simp

/-- A value which is neither an array nor an object. -/
def Atomic (v : JVal) : Prop := (∀ vs, v ≠ .arr vs) ∧ ∀ kvs, v ≠ .obj kvs

theorem matchNumber_length {s r : List Char} {v : JVal} (h : matchNumber s = some (v, r)) :
    Atomic v ∧ r.length < s.length := by
  unfold matchNumber at h
  split at h
  · simp at h
  · rename_i i r0 hi
    have h0 := matchInteger_length hi
    have h1 := matchFrac_length r0
    have h2 := matchExp_length (matchFrac r0).2
    dsimp only at h
    split at h
    · cases h; exact ⟨⟨by simp, by simp⟩, by omega⟩
    · cases h; exact ⟨⟨by simp, by simp⟩, by omega⟩

theorem dropWord_length {w s r : List Char} (h : dropWord w s = some r) (hw : w ≠ []) :
    r.length < s.length := by
  unfold dropWord at h
  split at h
  · rename_i hp
    cases h
    have h1 := (List.isPrefixOf_iff_prefix.1 hp).length_le
    have h2 : 0 < w.length := List.length_pos_iff.2 hw
    rw [List.length_drop]; omega
  · simp at h

theorem scanAtom_ok {s r : List Char} {v : JVal} (h : scanAtom s = .ok (v, r)) :
    Atomic v ∧ r.length < s.length := by
  unfold scanAtom at h
  split at h
  · rename_i hd; cases h; exact ⟨⟨by simp, by simp⟩, dropWord_length hd (by decide)⟩
  split at h
  · rename_i hd; cases h; exact ⟨⟨by simp, by simp⟩, dropWord_length hd (by decide)⟩
  split at h
  · rename_i hd; cases h; exact ⟨⟨by simp, by simp⟩, dropWord_length hd (by decide)⟩
  split at h
  · rename_i hd; cases h; exact matchNumber_length hd
  split at h
  · rename_i hd; cases h; exact ⟨⟨by simp, by simp⟩, dropWord_length hd (by decide)⟩
  split at h
  · rename_i hd; cases h; exact ⟨⟨by simp, by simp⟩, dropWord_length hd (by decide)⟩
  split at h
  · rename_i hd; cases h; exact ⟨⟨by simp, by simp⟩, dropWord_length hd (by decide)⟩
  · simp at h

theorem scanAtom_err {s : List Char} {e : JErr} (h : scanAtom s = .error e) : e = .stop := by
  unfold scanAtom at h
  repeat' (split at h)
  all_goals first
    | (simp at h; done)
    | (cases h; rfl)

/-- Whatever the scanner returns is free of duplicate keys and null members, and it has
consumed something. -/
def ScanOk (int16 : List Char → Option Int) (n : Nat) : Prop :=
  (∀ s v r, scanOnce int16 n s = .ok (v, r) → Clean v ∧ r.length < s.length) ∧
  (∀ s vs r, scanItems int16 n s = .ok (vs, r) → (∀ v ∈ vs, Clean v) ∧ r.length < s.length) ∧
  (∀ s kvs r, scanMembers int16 n s = .ok (kvs, r) → (∀ p ∈ kvs, Clean p.2) ∧ r.length < s.length)

theorem scan_ok (int16 : List Char → Option Int) : ∀ n, ScanOk int16 n := by
  intro n
  induction n with
  | zero => refine ⟨?_, ?_, ?_⟩ <;> intro s v r h <;> simp [scanOnce, scanItems, scanMembers] at h
  | succ n ih =>
    obtain ⟨ih1, ih2, ih3⟩ := ih
    refine ⟨?_, ?_, ?_⟩
    · intro s v r h
      unfold scanOnce at h
      split at h
      · simp at h
      · rename_i c r0
        have hsk := skipWs_length r0
        split at h
        · split at h
          · rename_i ht
            cases h
            have := scanString_length _ _ (Nat.le_refl _) ht
            exact ⟨clean_atom (by simp) (by simp), by simp; omega⟩
          · simp at h
        · split at h
          · split at h
            · simp at h
            · rename_i d r' heq
              rw [heq] at hsk
              split at h
              · obtain ⟨rfl, rfl, _, _⟩ := finishObject_ok h
                exact ⟨(clean_obj []).2 (by simp), by simp at hsk ⊢; omega⟩
              · split at h
                · split at h
                  · rename_i hm
                    obtain ⟨h1, h2⟩ := ih3 _ _ _ hm
                    obtain ⟨rfl, rfl, h3, h4⟩ := finishObject_ok h
                    exact ⟨(clean_obj _).2 ⟨h3, h4, h1⟩, by simp at hsk ⊢; omega⟩
                  · simp at h
                · simp at h
          · split at h
            · split at h
              · simp at h
              · rename_i d r' heq
                rw [heq] at hsk
                split at h
                · cases h
                  exact ⟨(clean_arr []).2 (by simp), by simp at hsk ⊢; omega⟩
                · split at h
                  · rename_i hm
                    cases h
                    obtain ⟨h1, h2⟩ := ih2 _ _ _ hm
                    exact ⟨(clean_arr _).2 h1, by simp at hsk h2 ⊢; omega⟩
                  · simp at h
            · obtain ⟨h1, h2⟩ := scanAtom_ok h
              exact ⟨clean_atom h1.1 h1.2, h2⟩
    · intro s vs r h
      unfold scanItems at h
      split at h
      · simp at h
      · simp at h
      · rename_i v r0 hv
        obtain ⟨h1, h2⟩ := ih1 _ _ _ hv
        have hsk := skipWs_length r0
        split at h
        · simp at h
        · rename_i d r' heq
          rw [heq] at hsk
          split at h
          · cases h
            exact ⟨by simpa using h1, by simp at hsk; omega⟩
          · split at h
            · split at h
              · rename_i hm
                cases h
                obtain ⟨h3, h4⟩ := ih2 _ _ _ hm
                have := skipWs_length r'
                exact ⟨by simpa using ⟨h1, h3⟩, by simp at hsk; omega⟩
              · simp at h
            · simp at h
    · intro s kvs r h
      unfold scanMembers at h
      split at h
      · simp at h
      · rename_i k r0 hk
        have hl := scanString_length _ _ (Nat.le_refl _) hk
        have hsk := skipWs_length r0
        split at h
        · simp at h
        · rename_i d r1 heq
          rw [heq] at hsk
          split at h
          · split at h
            · simp at h
            · simp at h
            · rename_i v r2 hv
              obtain ⟨h1, h2⟩ := ih1 _ _ _ hv
              have hsk1 := skipWs_length r1
              have hsk2 := skipWs_length r2
              split at h
              · simp at h
              · rename_i d3 r3 heq3
                rw [heq3] at hsk2
                split at h
                · cases h
                  exact ⟨by simpa using h1, by simp at hsk hsk2; omega⟩
                · split at h
                  · have hsk3 := skipWs_length r3
                    split at h
                    · simp at h
                    · rename_i q r4 heq4
                      rw [heq4] at hsk3
                      split at h
                      · split at h
                        · rename_i hm
                          cases h
                          obtain ⟨h3, h4⟩ := ih3 _ _ _ hm
                          refine ⟨?_, by simp at hsk hsk2 hsk3; omega⟩
                          intro p hp
                          rcases List.mem_cons.1 hp with rfl | hp
                          · exact h1
                          · exact h3 p hp
                        · simp at h
                      · simp at h
                  · simp at h
          · simp at h

theorem finishObject_err {kvs : List (JText × JVal)} {r : List Char} {e : JErr}
    (h : finishObject kvs r = .error e) : ∃ m, e = .cfn m := by
  unfold finishObject at h
  split at h
  · simp at h
  · rename_i hc
    cases h
    exact checkDuplicates_err _ _ _ hc

/-- With enough fuel the scanner does not run out of it. -/
theorem scan_fuel_suffices (int16 : List Char → Option Int) : ∀ n,
    (∀ s, 2 * s.length + 1 ≤ n → scanOnce int16 n s ≠ .error .fuel) ∧
    (∀ s, 2 * s.length + 2 ≤ n → scanItems int16 n s ≠ .error .fuel) ∧
    (∀ s, 2 * s.length + 2 ≤ n → scanMembers int16 n s ≠ .error .fuel) := by
  intro n
  induction n with
  | zero => refine ⟨?_, ?_, ?_⟩ <;> intro s h <;> omega
  | succ n ih =>
    obtain ⟨ih1, ih2, ih3⟩ := ih
    obtain ⟨ok1, ok2, ok3⟩ := scan_ok int16 n
    refine ⟨?_, ?_, ?_⟩
    · intro s hs h
      unfold scanOnce at h
      split at h
      · simp at h
      · rename_i c r0
        have hsk := skipWs_length r0
        simp only [List.length_cons] at hs
        split at h
        · split at h
          · simp at h
          · rename_i ht
            exact (scanString_err _ _ (Nat.le_refl _) ht).1 (Except.error.inj h)
        · split at h
          · split at h
            · simp at h
            · rename_i d r' heq
              rw [heq] at hsk
              simp only [List.length_cons] at hsk
              split at h
              · obtain ⟨m, hm⟩ := finishObject_err h
                simp at hm
              · split at h
                · split at h
                  · obtain ⟨m, hm⟩ := finishObject_err h
                    simp at hm
                  · rename_i hm
                    cases h
                    exact ih3 _ (by omega) hm
                · simp at h
          · split at h
            · split at h
              · simp at h
              · rename_i d r' heq
                rw [heq] at hsk
                split at h
                · simp at h
                · split at h
                  · simp at h
                  · rename_i hm
                    cases h
                    exact ih2 _ (by omega) hm
            · have := scanAtom_err h
              simp at this
    · intro s hs h
      unfold scanItems at h
      split at h
      · simp at h
      · rename_i e hne he
        cases h
        exact ih1 _ (by omega) he
      · rename_i v r0 hv
        obtain ⟨_, h2⟩ := ok1 _ _ _ hv
        have hsk := skipWs_length r0
        split at h
        · simp at h
        · rename_i d r' heq
          rw [heq] at hsk
          simp only [List.length_cons] at hsk
          split at h
          · simp at h
          · split at h
            · split at h
              · simp at h
              · rename_i hm
                cases h
                have := skipWs_length r'
                exact ih2 _ (by omega) hm
            · simp at h
    · intro s hs h
      unfold scanMembers at h
      split at h
      · rename_i ht
        cases h
        exact (scanString_err _ _ (Nat.le_refl _) ht).1 rfl
      · rename_i k r0 hk
        have hl := scanString_length _ _ (Nat.le_refl _) hk
        have hsk := skipWs_length r0
        split at h
        · simp at h
        · rename_i d r1 heq
          rw [heq] at hsk
          simp only [List.length_cons] at hsk
          have hsk1 := skipWs_length r1
          split at h
          · split at h
            · simp at h
            · rename_i e hne he
              cases h
              exact ih1 _ (by omega) he
            · rename_i v r2 hv
              obtain ⟨_, h2⟩ := ok1 _ _ _ hv
              have hsk2 := skipWs_length r2
              split at h
              · simp at h
              · rename_i d3 r3 heq3
                rw [heq3] at hsk2
                simp only [List.length_cons] at hsk2
                split at h
                · simp at h
                · split at h
                  · have hsk3 := skipWs_length r3
                    split at h
                    · simp at h
                    · rename_i q r4 heq4
                      rw [heq4] at hsk3
                      simp only [List.length_cons] at hsk3
                      split at h
                      · split at h
                        · simp at h
                        · rename_i hm
                          cases h
                          exact ih3 _ (by omega) hm
                      · simp at h
                  · simp at h
          · simp at h

end CfnLint
