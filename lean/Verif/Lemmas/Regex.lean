import Verif.Spec.Regex
/- The matcher finds the texts of the language. -/
namespace CfnLint
open Spec Rx

theorem lang_eps {w : List Char} : Lang .eps w ↔ w = [] :=
  ⟨fun h => by cases h; rfl, by rintro rfl; exact .eps⟩

theorem lang_set {p : Char → Bool} {w : List Char} : Lang (.set p) w ↔ ∃ c, p c = true ∧ w = [c] :=
  ⟨fun h => by cases h with | set h => exact ⟨_, h, rfl⟩, by rintro ⟨c, h, rfl⟩; exact .set h⟩

theorem lang_seq {a b : Rx} {w : List Char} : Lang (.seq a b) w ↔ ∃ u v, Lang a u ∧ Lang b v ∧ w = u ++ v :=
  ⟨fun h => by cases h with | seq h h' => exact ⟨_, _, h, h', rfl⟩, by rintro ⟨u, v, h, h', rfl⟩; exact .seq h h'⟩

theorem lang_alt {a b : Rx} {w : List Char} : Lang (.alt a b) w ↔ Lang a w ∨ Lang b w :=
  ⟨fun h => by cases h with | left h => exact .inl h | right h => exact .inr h, fun h => h.elim .left .right⟩

theorem lang_star {a : Rx} {w : List Char} : Lang (.star a) w ↔ w = [] ∨ ∃ u v, Lang a u ∧ Lang (.star a) v ∧ w = u ++ v :=
  ⟨fun h => by cases h with | nil => exact .inl rfl | cons h h' => exact .inr ⟨_, _, h, h', rfl⟩,
    by
      rintro (rfl | ⟨u, v, h, h', rfl⟩)
      · exact .nil
      · exact .cons h h'⟩

/-- a match of a repetition may leave out empty matches -/
theorem lang_star_ne {a : Rx} {w : List Char} (h : Lang (.star a) w) :
    w = [] ∨ ∃ u v, u ≠ [] ∧ Lang a u ∧ Lang (.star a) v ∧ w = u ++ v := by
  generalize e : Rx.star a = r at h
  induction h with
  | nil => exact .inl rfl
  | @cons b u v h1 h2 _ ih2 =>
    cases e
    by_cases hu : u = []
    · subst hu
      exact ih2 rfl
    · exact .inr ⟨u, v, hu, h1, h2, rfl⟩
  | eps => cases e
  | set _ => cases e
  | seq _ _ => cases e
  | left _ => cases e
  | right _ => cases e

theorem starRest_sound {a : Rx} (ih : ∀ s u, u ∈ a.rest s → ∃ w, s = w ++ u ∧ Lang a w) :
    ∀ (n : Nat) (s u : List Char), u ∈ starRest a.rest n s → ∃ w, s = w ++ u ∧ Lang (.star a) w
  | 0, s, u, h => by
    cases List.mem_singleton.1 h
    exact ⟨[], rfl, .nil⟩
  | n + 1, s, u, h => by
    rw [starRest] at h
    rcases List.mem_cons.1 h with rfl | h
    · exact ⟨[], rfl, .nil⟩
    · obtain ⟨x, hx, hu⟩ := List.mem_flatMap.1 h
      obtain ⟨w1, rfl, h1⟩ := ih s x (List.mem_filter.1 hx).1
      obtain ⟨w2, rfl, h2⟩ := starRest_sound ih n x u hu
      exact ⟨w1 ++ w2, by simp, .cons h1 h2⟩

theorem starRest_complete {a : Rx} (ih : ∀ s u w, s = w ++ u → Lang a w → u ∈ a.rest s) :
    ∀ (n : Nat) (s u w : List Char), s.length ≤ n → s = w ++ u → Lang (.star a) w → u ∈ starRest a.rest n s
  | 0, s, u, w, hn, hs, h => by
    have : s = [] := List.length_eq_zero_iff.1 (Nat.le_zero.1 hn)
    subst this
    have := List.append_eq_nil_iff.1 hs.symm
    rw [this.2]
    exact List.mem_cons_self
  | n + 1, s, u, w, hn, hs, h => by
    rw [starRest]
    rcases lang_star_ne h with rfl | ⟨w1, w2, hne, h1, h2, rfl⟩
    · subst hs
      exact List.mem_cons_self
    · subst hs
      have hl : 0 < w1.length := List.length_pos_iff.2 hne
      refine List.mem_cons_of_mem _ (List.mem_flatMap.2 ⟨w2 ++ u, List.mem_filter.2 ⟨ih _ _ w1 (by simp) h1, ?_⟩, ?_⟩)
      · simp only [List.length_append, decide_eq_true_iff]
        omega
      · refine starRest_complete ih n _ u w2 ?_ rfl h2
        simp only [List.length_append] at hn ⊢
        omega

/-- the matcher is right -/
theorem mem_rest : ∀ {r : Rx} {s u : List Char}, u ∈ r.rest s ↔ ∃ w, s = w ++ u ∧ Lang r w
  | .eps, s, u => by
    simp only [Rx.rest, List.mem_singleton, lang_eps]
    constructor
    · rintro rfl; exact ⟨[], rfl, rfl⟩
    · rintro ⟨w, rfl, rfl⟩; rfl
  | .set p, [], u => by
    simp only [Rx.rest, List.not_mem_nil, lang_set, false_iff]
    rintro ⟨w, e, c, -, rfl⟩
    cases e
  | .set p, c :: s, u => by
    simp only [Rx.rest, lang_set]
    constructor
    · intro h
      split at h
      · rename_i hp
        cases List.mem_singleton.1 h
        exact ⟨[c], rfl, c, hp, rfl⟩
      · cases h
    · rintro ⟨w, e, c', hp, rfl⟩
      cases e
      rw [if_pos hp]
      exact List.mem_cons_self
  | .seq a b, s, u => by
    simp only [Rx.rest, List.mem_flatMap, lang_seq, mem_rest (r := a), mem_rest (r := b)]
    constructor
    · rintro ⟨x, ⟨w1, rfl, h1⟩, w2, rfl, h2⟩
      exact ⟨w1 ++ w2, by simp, w1, w2, h1, h2, rfl⟩
    · rintro ⟨w, rfl, w1, w2, h1, h2, rfl⟩
      exact ⟨w2 ++ u, ⟨w1, by simp, h1⟩, w2, rfl, h2⟩
  | .alt a b, s, u => by
    simp only [Rx.rest, List.mem_append, lang_alt, mem_rest (r := a), mem_rest (r := b)]
    constructor
    · rintro (⟨w, h, h'⟩ | ⟨w, h, h'⟩)
      · exact ⟨w, h, .inl h'⟩
      · exact ⟨w, h, .inr h'⟩
    · rintro ⟨w, h, h' | h'⟩
      · exact .inl ⟨w, h, h'⟩
      · exact .inr ⟨w, h, h'⟩
  | .star a, s, u => by
    rw [Rx.rest]
    constructor
    · exact starRest_sound (fun s u h => (mem_rest (r := a)).1 h) _ _ _
    · rintro ⟨w, hs, h⟩
      exact starRest_complete (fun s u w hs h => (mem_rest (r := a)).2 ⟨w, hs, h⟩) _ _ _ _ (Nat.le_refl _) hs h

/-- a text matches when it is in the language, perhaps without a line break at its end -/
theorem matchesAll_iff {r : Rx} {s : String} : r.matchesAll s = true ↔ MaybeBreak (Lang r) s := by
  unfold Rx.matchesAll MaybeBreak
  simp only [List.any_eq_true, mem_rest, Bool.or_eq_true, beq_iff_eq]
  constructor
  · rintro ⟨u, ⟨w, hs, h⟩, rfl | rfl⟩
    · exact ⟨w, h, .inl (by rw [hs, List.append_nil])⟩
    · exact ⟨w, h, .inr hs⟩
  · rintro ⟨w, h, hs | hs⟩
    · exact ⟨[], ⟨w, by rw [hs, List.append_nil], h⟩, .inl rfl⟩
    · exact ⟨['\n'], ⟨w, hs, h⟩, .inr rfl⟩

/-- the characters of a range of digits -/
def digitChars : List Char := ['0', '1', '2', '3', '4', '5', '6', '7', '8', '9']

theorem digit_mem {c : Char} : c ∈ digitChars ↔ '0' ≤ c ∧ c ≤ '9' := by
  constructor
  · intro h
    revert c
    decide
  · rintro ⟨h1, h2⟩
    have a1 : 48 ≤ c.toNat := h1
    have a2 : c.toNat ≤ 57 := h2
    have : c = Char.ofNat c.toNat := (Char.ofNat_toNat c).symm
    rw [this]
    generalize c.toNat = n at a1 a2
    have : n = 48 ∨ n = 49 ∨ n = 50 ∨ n = 51 ∨ n = 52 ∨ n = 53 ∨ n = 54 ∨ n = 55 ∨ n = 56 ∨ n = 57 := by omega
    rcases this with rfl | rfl | rfl | rfl | rfl | rfl | rfl | rfl | rfl | rfl <;> decide

theorem lang_chr {c : Char} {w : List Char} : Lang (chr c) w ↔ w = [c] := by
  unfold chr
  rw [lang_set]
  simp

theorem lang_rng {a b : Char} {w : List Char} : Lang (rng a b) w ↔ ∃ c, (a ≤ c ∧ c ≤ b) ∧ w = [c] := by
  unfold rng
  rw [lang_set]
  simp

theorem lang_dig {w : List Char} : Lang dig w ↔ ∃ c ∈ digitChars, w = [c] := by
  unfold dig
  rw [lang_rng]
  simp only [digit_mem]

theorem lang_opt {a : Rx} {w : List Char} : Lang (opt a) w ↔ Lang a w ∨ w = [] := by
  unfold opt
  rw [lang_alt, lang_eps]

/-- a range inside the digits -/
theorem lang_digits {a b : Char} {w : List Char} (ha : '0' ≤ a) (hb : b ≤ '9') :
    Lang (rng a b) w ↔ ∃ c ∈ digitChars, (a ≤ c ∧ c ≤ b) ∧ w = [c] := by
  rw [lang_rng]
  constructor
  · rintro ⟨c, h, rfl⟩
    exact ⟨c, digit_mem.2 ⟨Char.le_trans ha h.1, Char.le_trans h.2 hb⟩, h, rfl⟩
  · rintro ⟨c, _, h, rfl⟩
    exact ⟨c, h, rfl⟩

end CfnLint
