import Verif.Spec.Format
import Verif.Lemmas.JsonGram
/-
Lemmas about the formatters: numbers, line breaks, lines, encoded JSON.
-/
namespace CfnLint
open Spec

/-! ### numbers -/

theorem natText_eq (n : Nat) : natText n = dumpNat n := by
  induction n using Nat.strongRecOn with
  | ind n ih =>
    unfold natText dumpNat
    split
    · rfl
    · rw [ih (n / 10) (by omega)]

theorem intText_eq (i : Int) : intText i = dumpInt i := by
  cases i <;> simp [intText, dumpInt, natText_eq]

theorem natText_injective {m n : Nat} (h : natText m = natText n) : m = n := by
  rw [natText_eq, natText_eq] at h
  rw [← (dumpNat_spec m).2.1, ← (dumpNat_spec n).2.1, h]

theorem natText_digit {n : Nat} {c : Char} (h : c ∈ natText n) : '0' ≤ c ∧ c ≤ '9' := by
  rw [natText_eq] at h
  exact (dumpNat_spec n).1.2 c h

theorem intText_char {i : Int} {c : Char} (h : c ∈ intText i) : c = '-' ∨ ('0' ≤ c ∧ c ≤ '9') := by
  cases i with
  | ofNat n => exact .inr (natText_digit h)
  | negSucc n =>
    rcases List.mem_cons.1 h with h | h
    · exact .inl h
    · exact .inr (natText_digit h)

theorem intText_no_colon (i : Int) : ':' ∉ intText i := fun h => absurd (intText_char h) (by decide)
theorem intText_no_newline (i : Int) : '\n' ∉ intText i := fun h => absurd (intText_char h) (by decide)

theorem intText_injective {i j : Int} (h : intText i = intText j) : i = j := by
  have hm : ∀ m n : Nat, natText m ≠ '-' :: natText n := by
    intro m n he
    have : '-' ∈ natText m := by rw [he]; simp
    exact absurd (natText_digit this) (by decide)
  cases i with
  | ofNat m =>
    cases j with
    | ofNat n => rw [natText_injective h]
    | negSucc n => exact absurd h (hm _ _)
  | negSucc m =>
    cases j with
    | ofNat n => exact absurd h.symm (hm _ _)
    | negSucc n =>
      simp only [intText, List.cons.injEq, true_and] at h
      have := natText_injective h
      congr 1
      omega

/-! ### line breaks -/

theorem lineBreak_some {s r : List Char} (h : lineBreak s = some r) : ∃ k, s = List.replicate k '\r' ++ '\n' :: r := by
  induction s with
  | nil => simp [lineBreak] at h
  | cons c s ih =>
    by_cases hc : c = '\r'
    · subst hc
      have : lineBreak ('\r' :: s) = lineBreak s := by simp [lineBreak]
      rw [this] at h
      obtain ⟨k, rfl⟩ := ih h
      exact ⟨k + 1, by simp [List.replicate_succ]⟩
    · refine ⟨0, ?_⟩
      simp [lineBreak, hc] at h
      simp [h.1, h.2]

theorem lineBreak_replicate (k : Nat) (r : List Char) : lineBreak (List.replicate k '\r' ++ '\n' :: r) = some r := by
  induction k with
  | zero => simp [lineBreak]
  | succ k ih =>
    rw [List.replicate_succ, List.cons_append]
    have : ∀ s, lineBreak ('\r' :: s) = lineBreak s := by intro s; simp [lineBreak]
    rw [this, ih]

theorem startsBreak_iff {s : List Char} : StartsBreak s ↔ lineBreak s ≠ none := by
  constructor
  · rintro ⟨k, r, rfl⟩
    simp [lineBreak_replicate]
  · intro h
    cases hb : lineBreak s with
    | none => exact absurd hb h
    | some r =>
      obtain ⟨k, hk⟩ := lineBreak_some hb
      exact ⟨k, r, hk⟩

theorem lineBreaks_spec (s : List Char) : ¬ StartsBreak (lineBreaks s) ∧
    (s = lineBreaks s ∨ ∃ b, Breaks b ∧ s = b ++ lineBreaks s) := by
  unfold lineBreaks
  split
  · rename_i r h
    have hl := lineBreak_length h
    obtain ⟨h1, h2⟩ := lineBreaks_spec r
    refine ⟨h1, Or.inr ?_⟩
    obtain ⟨k, rfl⟩ := lineBreak_some h
    rcases h2 with h2 | ⟨b, hb, h2⟩
    · exact ⟨_, .one k, by simp [← h2]⟩
    · exact ⟨_, .more k hb, by simp [← h2]⟩
  · rename_i h
    exact ⟨fun hs => startsBreak_iff.1 hs h, .inl rfl⟩
termination_by s.length

theorem flatten_unbroken : ∀ s : List Char, Unbroken s (flatten s)
  | [] => by rw [flatten]; exact .nil
  | c :: r => by
    unfold flatten
    split
    · rename_i r' h
      have hl := lineBreak_length h
      have hl' := lineBreaks_length r'
      obtain ⟨h1, h2⟩ := lineBreaks_spec r'
      have ih := flatten_unbroken (lineBreaks r')
      obtain ⟨k, hk⟩ := lineBreak_some h
      rcases h2 with h2 | ⟨b, hb, h2⟩
      · have := Unbroken.breaks (.one k) h1 ih
        rw [hk]
        rw [← h2] at this ⊢
        simpa using this
      · have := Unbroken.breaks (.more k hb) h1 ih
        rw [hk]
        have he : List.replicate k '\r' ++ '\n' :: b ++ lineBreaks r' = List.replicate k '\r' ++ '\n' :: r' := by
          conv => rhs; rw [h2]
          simp
        rwa [he] at this
    · rename_i h
      exact .char (fun hs => startsBreak_iff.1 hs h) (flatten_unbroken r)
termination_by s => s.length
decreasing_by
  · simp at *; omega
  · simp

theorem unbroken_no_newline {s t : List Char} (h : Unbroken s t) : '\n' ∉ t := by
  induction h with
  | nil => simp
  | @char c s t hs _ ih =>
    intro hm
    rcases List.mem_cons.1 hm with rfl | hm
    · exact hs ⟨0, s, rfl⟩
    · exact ih hm
  | breaks _ _ _ ih =>
    intro hm
    rcases List.mem_cons.1 hm with hm | hm
    · revert hm; decide
    · exact ih hm

theorem breaks_newline {b : List Char} (h : Breaks b) : '\n' ∈ b := by
  cases h <;> simp

/-- a text without line feed is left alone -/
theorem unbroken_same {s t : List Char} (h : Unbroken s t) (hs : '\n' ∉ s) : t = s := by
  induction h with
  | nil => rfl
  | char _ _ ih => rw [ih (fun hm => hs (by simp [hm]))]
  | breaks hb _ _ _ => exact absurd (by simp [breaks_newline hb]) hs

theorem breaks_starts {b : List Char} (h : Breaks b) (s : List Char) : StartsBreak (b ++ s) := by
  cases h with
  | one k => exact ⟨k, s, by simp⟩
  | @more k b hb => exact ⟨k, b ++ s, by simp⟩

theorem replicate_cancel {k k' : Nat} {r r' : List Char}
    (h : List.replicate k '\r' ++ '\n' :: r = List.replicate k' '\r' ++ '\n' :: r') : k = k' ∧ r = r' := by
  induction k generalizing k' with
  | zero =>
    cases k' with
    | zero => simpa using h
    | succ k' => simp [List.replicate_succ] at h
  | succ k ih =>
    cases k' with
    | zero => simp [List.replicate_succ] at h
    | succ k' =>
      simp only [List.replicate_succ, List.cons_append, List.cons.injEq, true_and] at h
      obtain ⟨h1, h2⟩ := ih h
      exact ⟨by rw [h1], h2⟩

theorem breaks_unique {b : List Char} (hb : Breaks b) : ∀ {b' s s' : List Char}, Breaks b' → ¬ StartsBreak s → ¬ StartsBreak s' →
    b ++ s = b' ++ s' → s = s' := by
  induction hb with
  | one k =>
    intro b' s s' hb' hs hs' he
    cases hb' with
    | one k' =>
      simp only [List.append_assoc, List.cons_append, List.nil_append] at he
      exact (replicate_cancel he).2
    | @more k' b' hb' =>
      simp only [List.append_assoc, List.cons_append, List.nil_append] at he
      have := (replicate_cancel he).2
      exact absurd (this ▸ breaks_starts hb' s') hs
  | @more k b hb ih =>
    intro b' s s' hb' hs hs' he
    cases hb' with
    | one k' =>
      simp only [List.append_assoc, List.cons_append, List.nil_append] at he
      have := (replicate_cancel he).2
      exact absurd (this ▸ breaks_starts hb s) hs'
    | @more k' b' hb' =>
      simp only [List.append_assoc, List.cons_append] at he
      exact ih hb' hs hs' (replicate_cancel he).2

/-- the flattened text is determined -/
theorem unbroken_unique {s t : List Char} (h : Unbroken s t) : ∀ {t'}, Unbroken s t' → t = t' := by
  induction h with
  | nil =>
    intro t' h'
    generalize he : ([] : List Char) = s at h'
    cases h' with
    | nil => rfl
    | char => cases he
    | @breaks b s t hb _ _ =>
      have := breaks_newline hb
      have hnil : b = [] := (List.append_eq_nil_iff.1 he.symm).1
      rw [hnil] at this; cases this
  | @char c s t hs h1 ih =>
    intro t' h'
    generalize he : c :: s = x at h'
    cases h' with
    | nil => cases he
    | @char c' s' t' _ h2 =>
      cases he
      rw [ih h2]
    | @breaks b s' t' hb _ _ => exact absurd (he ▸ breaks_starts hb s') hs
  | @breaks b s t hb hs h1 ih =>
    intro t' h'
    generalize he : b ++ s = x at h'
    cases h' with
    | nil =>
      have := breaks_newline hb
      rw [(List.append_eq_nil_iff.1 he).1] at this; cases this
    | @char c' s' t' hn _ => exact absurd (he ▸ breaks_starts hb s) hn
    | @breaks b' s' t' hb' hs' h2 =>
      have := breaks_unique hb hb' hs hs' he
      subst this
      rw [ih h2]

/-! ### lines and fields -/

theorem split_unique {x : Char} : ∀ {a a' b b' : List Char}, x ∉ a → x ∉ a' → a ++ x :: b = a' ++ x :: b' → a = a' ∧ b = b' := by
  intro a
  induction a with
  | nil =>
    intro a' b b' _ h' he
    cases a' with
    | nil => simpa using he
    | cons c a' =>
      simp only [List.nil_append, List.cons_append, List.cons.injEq] at he
      exact absurd (by simp [he.1]) h'
  | cons c a ih =>
    intro a' b b' h h' he
    cases a' with
    | nil =>
      simp only [List.nil_append, List.cons_append, List.cons.injEq] at he
      exact absurd (by simp [he.1]) h
    | cons c' a' =>
      simp only [List.cons_append, List.cons.injEq] at he
      obtain ⟨h1, h2⟩ := ih (fun hm => h (by simp [hm])) (fun hm => h' (by simp [hm])) he.2
      exact ⟨by rw [he.1, h1], h2⟩

theorem lines_join {ls : List (List Char)} (hne : ls ≠ []) (h : ∀ l ∈ ls, '\n' ∉ l) : Lines (joinLines ls) ls := by
  induction ls with
  | nil => exact absurd rfl hne
  | cons l ls ih =>
    cases ls with
    | nil => exact .one (h l (by simp))
    | cons l' ls =>
      rw [joinLines]
      · exact .more (h l (by simp)) (ih (by simp) (fun x hx => h x (by simp at hx ⊢; exact .inr hx)))
      · simp

theorem lines_unique {out : List Char} {ls : List (List Char)} (h : Lines out ls) : ∀ {ls'}, Lines out ls' → ls = ls' := by
  induction h with
  | @one l hl =>
    intro ls' h'
    generalize he : l = x at h'
    cases h' with
    | one => rfl
    | more => exact absurd (by rw [he]; simp) hl
  | @more l out ls hl h1 ih =>
    intro ls' h'
    generalize he : l ++ '\n' :: out = x at h'
    cases h' with
    | one hx => exact absurd (by rw [← he]; simp) hx
    | @more l' out' ls' hl' h2 =>
      obtain ⟨h3, h4⟩ := split_unique hl hl' he
      subst h4
      rw [h3, ih h2]

theorem lines_count {out : List Char} {ls : List (List Char)} (h : Lines out ls) : out.count '\n' + 1 = ls.length := by
  induction h with
  | one hl => simp [List.count_eq_zero.2 hl]
  | more hl _ ih => simp [List.count_eq_zero.2 hl, ih]

/-! ### encoded JSON -/

theorem hexDigit_eq {n : Nat} (h : n < 16) : hexDigit n = hexChar n := by
  unfold hexDigit hexChar
  split
  · rfl
  · congr 1; omega

theorem unicodeEscape_eq {n : Nat} (h : n < 65536) : unicodeEscape n = dumpUnit n := by
  unfold unicodeEscape dumpUnit
  rw [hexDigit_eq (by omega), hexDigit_eq (by omega), hexDigit_eq (by omega), hexDigit_eq (by omega)]

theorem encodeChar_eq {u : Nat} (h : u < 0x110000) : encodeChar u = dumpCode u := by
  unfold encodeChar dumpCode
  by_cases h1 : u = 0x22
  · subst h1; decide
  by_cases h2 : u = 0x5c
  · subst h2; decide
  by_cases h3 : u = 0x0a
  · subst h3; decide
  by_cases h4 : u = 0x0d
  · subst h4; decide
  by_cases h5 : u = 0x09
  · subst h5; decide
  by_cases h6 : u = 0x0c
  · subst h6; decide
  by_cases h7 : u = 0x08
  · subst h7; decide
  have hf : shortEscapes.find? (fun p => decide (p.2 = u ∧ p.1 ≠ '/')) = none := by
    simp [shortEscapes, Ne.symm h1, Ne.symm h2, Ne.symm h3, Ne.symm h4, Ne.symm h5, Ne.symm h6, Ne.symm h7]
  rw [hf]
  simp only [h1, h2, h3, h4, h5, h6, h7, if_false]
  by_cases h8 : 0x20 ≤ u ∧ u ≤ 0x7e
  · rw [if_pos h8, if_pos (show 0x20 ≤ u ∧ u < 0x7f by omega)]
  · rw [if_neg h8, if_neg (show ¬ (0x20 ≤ u ∧ u < 0x7f) by omega)]
    by_cases h9 : u < 0x10000
    · rw [if_pos h9, if_pos h9, unicodeEscape_eq h9]
    · rw [if_neg h9, if_neg h9, unicodeEscape_eq (by omega), unicodeEscape_eq (by omega)]
      congr 2
      omega

theorem encodeText_eq {t : JText} (h : ScalarText t) : encodeText t = '"' :: (dumpText t ++ ['"']) := by
  unfold encodeText dumpText
  congr 2
  induction t with
  | nil => rfl
  | cons u t ih =>
    have hu := h u (by simp)
    rw [List.flatMap_cons, List.flatMap_cons, ih (fun x hx => h x (by simp [hx])), encodeChar_eq (by omega)]

theorem blank_newline (n : Nat) : Blank (newline n) := by
  intro c hc
  rcases List.mem_cons.1 hc with rfl | hc
  · simp
  · exact .inl (List.eq_of_mem_replicate hc)

mutual
theorem encode_gram : ∀ (v : JVal) (n : Nat), Value v → Gram (encode n v) (.value v)
  | .null, n, _ => by rw [encode]; exact .null
  | .bool true, n, _ => by rw [encode]; exact .true
  | .bool false, n, _ => by rw [encode]; exact .false
  | .int i, n, _ => by rw [encode, intText_eq]; exact .number (dumpInt_number i)
  | .flt t, n, h => by rw [encode]; exact .number (h.2.1 t (.here _))
  | .str t, n, h => by
    rw [encode, encodeText_eq (h.1 t (.here _))]
    exact .string (dumpText_chars (h.1 t (.here _)))
  | .arr [], n, _ => by rw [encode]; exact .emptyArr blank_nil
  | .arr (v :: vs), n, h => by
    rw [encode]
    have := Gram.arr (encodeItems_gram vs (n + 1) v (newline (n + 1)) (newline n) (blank_newline _) (blank_newline _)
      (encode_gram v (n + 1) (value_item h (by simp))) (fun x hx => value_item h (by simp [hx])))
    simpa only [List.append_assoc] using this
  | .obj [], n, _ => by rw [encode]; exact .emptyObj blank_nil
  | .obj ((k, v) :: kvs), n, h => by
    have hk := value_member h (p := (k, v)) (by simp)
    rw [encode, encodeText_eq hk.2]
    have := Gram.obj (encodeMembers_gram kvs (n + 1) k v (newline (n + 1)) (newline n) (blank_newline _) (blank_newline _)
      hk.2 (encode_gram v (n + 1) hk.1) (fun x hx => value_member h (by simp [hx])))
    simpa only [List.append_assoc, List.cons_append, List.nil_append] using this

theorem encodeItems_gram : ∀ (vs : List JVal) (n : Nat) (v : JVal) (w w' : List Char), Blank w → Blank w' →
    Gram (encode n v) (.value v) → (∀ x ∈ vs, Value x) →
    Gram (w ++ (encode n v ++ (encodeItems n vs ++ w'))) (.items (v :: vs))
  | [], n, v, w, w', hw, hw', hv, _ => by
    rw [encodeItems]
    exact .item hw hv hw'
  | x :: vs, n, v, w, w', hw, hw', hv, h => by
    rw [encodeItems]
    have h2 := encodeItems_gram vs n x (newline n) w' (blank_newline n) hw' (encode_gram x n (h x (by simp)))
      (fun y hy => h y (by simp [hy]))
    have := Gram.items hw hv blank_nil h2
    simpa only [List.append_assoc, List.cons_append, List.nil_append] using this

theorem encodeMembers_gram : ∀ (kvs : List (JText × JVal)) (n : Nat) (k : JText) (v : JVal) (w w' : List Char), Blank w →
    Blank w' → ScalarText k → Gram (encode n v) (.value v) → (∀ p ∈ kvs, Value p.2 ∧ ScalarText p.1) →
    Gram (w ++ '"' :: (dumpText k ++ '"' :: ':' :: ' ' :: (encode n v ++ (encodeMembers n kvs ++ w')))) (.members ((k, v) :: kvs))
  | [], n, k, v, w, w', hw, hw', hk, hv, _ => by
    rw [encodeMembers]
    have := Gram.member hw (dumpText_chars hk) blank_nil blank_space hv hw'
    simpa only [List.append_assoc, List.cons_append, List.nil_append] using this
  | (k', x) :: kvs, n, k, v, w, w', hw, hw', hk, hv, h => by
    have hx := h (k', x) (by simp)
    rw [encodeMembers, encodeText_eq hx.2]
    have h2 := encodeMembers_gram kvs n k' x (newline n) w' (blank_newline n) hw' hx.2 (encode_gram x n hx.1)
      (fun y hy => h y (by simp [hy]))
    have := Gram.members hw (dumpText_chars hk) blank_nil blank_space hv blank_nil h2
    simpa only [List.append_assoc, List.cons_append, List.nil_append] using this
end

/-! ### values -/

theorem value_arr_intro {vs : List JVal} (h : ∀ v ∈ vs, Value v) : Value (.arr vs) := by
  refine ⟨?_, ?_, ?_⟩
  · intro t ht
    cases ht with
    | item hm hi => exact (h _ hm).1 t hi
  · intro t ht
    cases ht with
    | item hm hi => exact (h _ hm).2.1 t hi
  · intro t ht
    cases ht with
    | item hm hi => exact (h _ hm).2.2 t hi

theorem value_obj_intro {kvs : List (JText × JVal)} (h : ∀ p ∈ kvs, Value p.2 ∧ ScalarText p.1) : Value (.obj kvs) := by
  refine ⟨?_, ?_, ?_⟩
  · intro t ht
    cases ht with
    | member hm hi => exact (h _ hm).1.1 t hi
  · intro t ht
    cases ht with
    | member hm hi => exact (h _ hm).1.2.1 t hi
  · intro t ht
    cases ht with
    | here => exact fun p hp => (h p hp).2
    | member hm hi => exact (h _ hm).1.2.2 t hi

theorem jvalue_str {t : JText} (h : ScalarText t) : Value (.str t) := by
  refine ⟨?_, ?_, ?_⟩
  · intro t' ht; cases ht; exact h
  · intro t' ht; cases ht
  · intro t' ht; cases ht

theorem jvalue_int (i : Int) : Value (.int i) := by
  refine ⟨?_, ?_, ?_⟩ <;> (intro t ht; cases ht)

theorem jvalue_null : Value .null := by
  refine ⟨?_, ?_, ?_⟩ <;> (intro t ht; cases ht)

theorem scalar_codes (s : String) : ScalarText (codes s) := by
  intro u hu
  unfold codes at hu
  obtain ⟨c, _, rfl⟩ := List.mem_map.1 hu
  have := c.valid
  simp only [UInt32.isValidChar, Nat.isValidChar] at this
  change c.val.toNat < _ ∨ _ ∧ c.val.toNat < _
  have h2 : c.toNat = c.val.toNat := rfl
  omega

theorem insertMember_mem {p q : JText × JVal} {l : List (JText × JVal)} : q ∈ insertMember p l ↔ q = p ∨ q ∈ l := by
  induction l with
  | nil => simp [insertMember]
  | cons x l ih =>
    unfold insertMember
    split
    · simp
    · simp [ih]; tauto

mutual
theorem sortKeys_value : ∀ v : JVal, Value v → Value (sortKeys v)
  | .arr vs, h => by
    rw [sortKeys]
    exact value_arr_intro (sortItems_value vs (fun v hv => value_item h hv))
  | .obj kvs, h => by
    rw [sortKeys]
    exact value_obj_intro (sortMembers_value kvs (fun v hv => value_member h hv))
  | .null, h => by rw [sortKeys]; exact h
  | .bool b, h => by rw [sortKeys]; exact h
  | .int i, h => by rw [sortKeys]; exact h
  | .flt t, h => by rw [sortKeys]; exact h
  | .str t, h => by rw [sortKeys]; exact h

theorem sortItems_value : ∀ vs : List JVal, (∀ v ∈ vs, Value v) → ∀ v ∈ sortItems vs, Value v
  | [], _ => by rw [sortItems]; simp
  | x :: vs, h => by
    rw [sortItems]
    intro v hv
    rcases List.mem_cons.1 hv with rfl | hv
    · exact sortKeys_value x (h x (by simp))
    · exact sortItems_value vs (fun y hy => h y (by simp [hy])) v hv

theorem sortMembers_value : ∀ kvs : List (JText × JVal), (∀ p ∈ kvs, Value p.2 ∧ ScalarText p.1) →
    ∀ p ∈ sortMembers kvs, Value p.2 ∧ ScalarText p.1
  | [], _ => by rw [sortMembers]; simp
  | (k, x) :: kvs, h => by
    rw [sortMembers]
    intro p hp
    rcases insertMember_mem.1 hp with rfl | hp
    · exact ⟨sortKeys_value x (h _ (List.mem_cons_self)).1, (h _ (List.mem_cons_self)).2⟩
    · exact sortMembers_value kvs (fun y hy => h y (by simp [hy])) p hp
end

end CfnLint
