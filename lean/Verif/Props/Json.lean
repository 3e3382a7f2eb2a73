import Verif.Lemmas.Json
/-
C34 and C35: JSON templates decode to what they say; duplicate keys and null members
are rejected.
-/
namespace CfnLint
open Spec

/-! ### The serialiser writes JSON -/

theorem hexDigit_hexChar {n : Nat} (h : n < 16) : HexDigit (hexChar n) n := by
  unfold hexChar
  split
  · exact .dec n ‹_›
  · have := HexDigit.lower (n - 10) (by omega)
    rwa [show 10 + (n - 10) = n by omega] at this

theorem hex4_dumpUnit {u : Nat} (h : u < 0x10000) :
    ∃ x, dumpUnit u = '\\' :: 'u' :: x ∧ Hex4 x u := by
  refine ⟨_, rfl, ?_⟩
  have := Hex4.mk (hexDigit_hexChar (n := u / 4096) (by omega)) (hexDigit_hexChar (n := u / 256 % 16) (by omega))
    (hexDigit_hexChar (n := u / 16 % 16) (by omega)) (hexDigit_hexChar (n := u % 16) (by omega))
  rwa [show ((u / 4096 * 16 + u / 256 % 16) * 16 + u / 16 % 16) * 16 + u % 16 = u by omega] at this

theorem dumpText_chars {t : JText} (h : ScalarText t) : Chars (dumpText t) t := by
  induction t with
  | nil => exact .nil
  | cons u t ih =>
    have hu := h u (by simp)
    have ih := ih (fun x hx => h x (by simp [hx]))
    have hd : dumpText (u :: t) = dumpCode u ++ dumpText t := by simp [dumpText]
    rw [hd]
    unfold dumpCode
    split
    · rename_i e u' hf
      have hm := List.mem_of_find?_eq_some hf
      have hp := List.find?_some hf
      simp only [decide_eq_true_eq] at hp
      obtain ⟨rfl, _⟩ := hp
      exact .short hm ih
    · rename_i hf
      rw [List.find?_eq_none] at hf
      split
      · rename_i hr
        have hv : u.isValidChar := .inl (by omega)
        have hn : (Char.ofNat u).toNat = u := by
          rw [Char.toNat, Char.ofNat, dif_pos hv]
          rfl
        have := Chars.plain (c := Char.ofNat u) (s := dumpText t) (t := t) ?_ ?_ (by omega) ih
        · rwa [hn] at this
        · intro hc
          rw [hc] at hn
          exact hf ('"', 0x22) (by simp [shortEscapes]) (by simpa using hn)
        · intro hc
          rw [hc] at hn
          exact hf ('\\', 0x5c) (by simp [shortEscapes]) (by simpa using hn)
      · split
        · rename_i h1
          obtain ⟨x, hx, hh⟩ := hex4_dumpUnit h1
          rw [hx]
          refine .unit hh ?_ ih
          rintro ⟨⟨h2, h3⟩, _⟩
          omega
        · rename_i h1
          obtain ⟨x, hx, hh⟩ := hex4_dumpUnit (u := 0xd800 + (u - 0x10000) / 0x400) (by omega)
          obtain ⟨y, hy, hh'⟩ := hex4_dumpUnit (u := 0xdc00 + (u - 0x10000) % 0x400) (by omega)
          rw [hx, hy]
          have := Chars.pair hh ⟨by omega, by omega⟩ hh' ⟨by omega, by omega⟩ ih
          rw [show 0x10000 + (0xd800 + (u - 0x10000) / 0x400 - 0xd800) * 0x400 +
            (0xdc00 + (u - 0x10000) % 0x400 - 0xdc00) = u by omega] at this
          simpa using this

theorem decimal_snoc (s : List Char) (c : Char) : decimal (s ++ [c]) = decimal s * 10 + (c.toNat - '0'.toNat) := by
  induction s with
  | nil => simp [decimal]
  | cons d s ih =>
    simp only [List.cons_append, decimal, ih, List.length_append, List.length_cons, List.length_nil, pow_succ,
      Nat.zero_add]
    ring

theorem digitChar {n : Nat} (h : n < 10) : ('0' ≤ Char.ofNat (48 + n) ∧ Char.ofNat (48 + n) ≤ '9') ∧
    (Char.ofNat (48 + n)).toNat - '0'.toNat = n ∧ (Char.ofNat (48 + n) = '0' → n = 0) := by
  interval_cases n <;> decide

theorem dumpNat_spec (n : Nat) : Digits (dumpNat n) ∧ decimal (dumpNat n) = n ∧
    (n ≠ 0 → (dumpNat n).head? ≠ some '0') ∧ (n = 0 → dumpNat n = ['0']) := by
  induction n using Nat.strongRecOn with
  | ind n ih =>
    unfold dumpNat
    split
    · rename_i h
      obtain ⟨h1, h2, h3⟩ := digitChar h
      refine ⟨⟨by simp, by simpa using h1⟩, ?_, ?_, ?_⟩
      · simpa [decimal] using h2
      · intro hn hc
        exact hn (h3 (by simpa using hc))
      · rintro rfl; rfl
    · rename_i h
      obtain ⟨⟨h1, h2⟩, h3, h4, _⟩ := ih (n / 10) (by omega)
      obtain ⟨h5, h6, _⟩ := digitChar (n := n % 10) (by omega)
      refine ⟨⟨by simp, ?_⟩, ?_, ?_, ?_⟩
      · intro c hc
        rcases List.mem_append.1 hc with hc | hc
        · exact h2 c hc
        · rw [List.mem_singleton.1 hc]; exact h5
      · rw [decimal_snoc, h3, h6]; omega
      · intro _
        have := h4 (by omega)
        cases hx : dumpNat (n / 10) with
        | nil => exact absurd hx h1
        | cons c s => rw [hx] at this; simpa using this
      · omega

theorem dumpNat_int (n : Nat) : IntPart (dumpNat n) := by
  obtain ⟨h1, _, h3, h4⟩ := dumpNat_spec n
  refine ⟨h1, ?_⟩
  by_cases hn : n = 0
  · exact .inl (h4 hn)
  · exact .inr (h3 hn)

theorem dumpInt_number (i : Int) : Number (dumpInt i) (.int i) := by
  cases i with
  | ofNat n =>
    have := Number.nat (dumpNat_int n)
    rwa [(dumpNat_spec n).2.1] at this
  | negSucc n =>
    have := Number.neg (dumpNat_int (n + 1))
    rwa [(dumpNat_spec (n + 1)).2.1] at this

theorem blank_nil : Blank [] := by simp [Blank]
theorem blank_space : Blank [' '] := by simp [Blank]

theorem gram_items_space {s : List Char} {vs : List JVal} (h : Gram s (.items vs)) :
    Gram (' ' :: s) (.items vs) := by
  have hb : ∀ {w : List Char}, Blank w → Blank (' ' :: w) := by
    intro w hw c hc
    rcases List.mem_cons.1 hc with rfl | hc
    · exact .inl rfl
    · exact hw c hc
  cases h with
  | item h1 h2 h3 => exact .item (hb h1) h2 h3
  | items h1 h2 h3 h4 => exact .items (hb h1) h2 h3 h4

theorem gram_members_space {s : List Char} {kvs : List (JText × JVal)} (h : Gram s (.members kvs)) :
    Gram (' ' :: s) (.members kvs) := by
  have hb : ∀ {w : List Char}, Blank w → Blank (' ' :: w) := by
    intro w hw c hc
    rcases List.mem_cons.1 hc with rfl | hc
    · exact .inl rfl
    · exact hw c hc
  cases h with
  | member h1 h2 h3 h4 h5 h6 => exact .member (hb h1) h2 h3 h4 h5 h6
  | members h1 h2 h3 h4 h5 h6 h7 => exact .members (hb h1) h2 h3 h4 h5 h6 h7

theorem value_item {vs : List JVal} (h : Value (.arr vs)) {v : JVal} (hv : v ∈ vs) : Value v :=
  ⟨fun t ht => h.1 t (.item hv ht), fun t ht => h.2.1 t (.item hv ht), fun kvs ht => h.2.2 kvs (.item hv ht)⟩

theorem value_member {kvs : List (JText × JVal)} (h : Value (.obj kvs)) {p : JText × JVal} (hp : p ∈ kvs) :
    Value p.2 ∧ ScalarText p.1 :=
  ⟨⟨fun t ht => h.1 t (.member (k := p.1) hp ht), fun t ht => h.2.1 t (.member (k := p.1) hp ht),
    fun kvs ht => h.2.2 kvs (.member (k := p.1) hp ht)⟩, h.2.2 kvs (.here _) p hp⟩

mutual
theorem dump_gram : ∀ v : JVal, Value v → Gram (dump v) (.value v)
  | .null, _ => by rw [dump]; exact .null
  | .bool true, _ => by rw [dump]; exact .true
  | .bool false, _ => by rw [dump]; exact .false
  | .int i, _ => by rw [dump]; exact .number (dumpInt_number i)
  | .flt t, h => by rw [dump]; exact .number (h.2.1 t (.here _))
  | .str t, h => by rw [dump]; exact .string (dumpText_chars (h.1 t (.here _)))
  | .arr [], _ => by rw [dump, dumpItems]; exact .emptyArr blank_nil
  | .arr (v :: vs), h => by
    rw [dump]
    exact .arr (dumpItems_gram (v :: vs) (by simp) (fun x hx => value_item h hx))
  | .obj [], _ => by rw [dump, dumpMembers]; exact .emptyObj blank_nil
  | .obj (p :: kvs), h => by
    rw [dump]
    exact .obj (dumpMembers_gram (p :: kvs) (by simp) (fun x hx => value_member h hx))

theorem dumpItems_gram : ∀ vs : List JVal, vs ≠ [] → (∀ v ∈ vs, Value v) → Gram (dumpItems vs) (.items vs)
  | [], h, _ => absurd rfl h
  | [v], _, h => by
    have := Gram.item blank_nil (dump_gram v (h v (by simp))) blank_nil
    simpa [dumpItems] using this
  | v :: w :: vs, _, h => by
    have h1 := dump_gram v (h v (by simp))
    have h2 := dumpItems_gram (w :: vs) (by simp) (fun x hx => h x (by simp at hx ⊢; exact .inr hx))
    have := Gram.items blank_nil h1 blank_nil (gram_items_space h2)
    rw [dumpItems]
    simpa using this

theorem dumpMembers_gram : ∀ kvs : List (JText × JVal), kvs ≠ [] →
    (∀ p ∈ kvs, Value p.2 ∧ ScalarText p.1) → Gram (dumpMembers kvs) (.members kvs)
  | [], h, _ => absurd rfl h
  | [(k, v)], _, h => by
    obtain ⟨h1, h2⟩ := h (k, v) (by simp)
    have := Gram.member blank_nil (dumpText_chars h2) blank_nil blank_space (dump_gram v h1) blank_nil
    simpa [dumpMembers] using this
  | (k, v) :: q :: kvs, _, h => by
    obtain ⟨h1, h2⟩ := h (k, v) (by simp)
    have h3 := dumpMembers_gram (q :: kvs) (by simp) (fun x hx => h x (by simp at hx ⊢; exact .inr hx))
    have := Gram.members blank_nil (dumpText_chars h2) blank_nil blank_space (dump_gram v h1) blank_nil
      (gram_members_space h3)
    rw [dumpMembers]
    simpa using this
end

/-! ### C34 -/

/-- Any JSON document, however it is spaced and escaped, decodes to the value it denotes,
unless an object in it has a duplicate key or a null member. -/
theorem C34_document_decodes (int16 : List Char → Option Int) (hi : ReadsHex int16) (s : List Char) (v : JVal)
    (hd : Document s v) (h1 : ¬ DuplicateKey v) (h2 : ¬ NullMember v) : jsonLoads int16 s = .ok v := by
  obtain ⟨w, s', w', hw, hw', hg, rfl⟩ := hd
  have hs := scan_gram hi hg
  obtain ⟨c, s'', rfl, hws, _, hbom⟩ := gram_value_head hg
  have hends : Ends w' := by simpa using ends_blank hw' (r := []) (by intro c hc; simp at hc)
  have hs := (hs (2 * (w ++ (c :: s'' ++ w')).length + 2) w' (by simp; omega) hends).1 ⟨h1, h2⟩
  unfold jsonLoads
  rw [if_neg, skipWs_blank hw, List.cons_append, skipWs_cons hws, ← List.cons_append, hs]
  · dsimp only
    rw [if_pos (skipWs_blank_nil hw')]
  · intro hb
    cases w with
    | nil =>
      simp only [List.nil_append, List.cons_append, List.head?_cons, Option.some.injEq] at hb
      exact hbom hb
    | cons d w =>
      simp only [List.cons_append, List.head?_cons, Option.some.injEq] at hb
      subst hb
      have := hw _ (List.mem_cons_self)
      revert this
      decide

/-- Serialising any JSON value without null members and duplicate keys and decoding it
again yields the same value. -/
theorem C34_round_trip (int16 : List Char → Option Int) (hi : ReadsHex int16) (v : JVal) (hv : Value v)
    (h1 : ¬ DuplicateKey v) (h2 : ¬ NullMember v) : jsonLoads int16 (dump v) = .ok v :=
  C34_document_decodes int16 hi _ v
    ⟨[], dump v, [], blank_nil, blank_nil, dump_gram v hv, by simp⟩ h1 h2

/-- Decoding has a result for every text: the counter of the model is never exhausted. -/
theorem C34_model_total (int16 : List Char → Option Int) (s : List Char) :
    jsonLoads int16 s ≠ .error .fuel := by
  intro h
  unfold jsonLoads at h
  split at h
  · simp at h
  · have hl := skipWs_length s
    split at h
    · simp at h
    · rename_i e _ he
      cases h
      exact (scan_fuel_suffices int16 _).1 (skipWs s) (by omega) he
    · split at h <;> simp at h

/-! ### C35 -/

/-- A JSON document in which some object has a duplicated key or a null value is
rejected with the decoder's own error. -/
theorem C35_document_rejected (int16 : List Char → Option Int) (hi : ReadsHex int16) (s : List Char) (v : JVal)
    (hd : Document s v) (h : DuplicateKey v ∨ NullMember v) : ∃ m, jsonLoads int16 s = .error (.cfn m) := by
  obtain ⟨w, s', w', hw, hw', hg, rfl⟩ := hd
  have hs := scan_gram hi hg
  obtain ⟨c, s'', rfl, hws, _, hbom⟩ := gram_value_head hg
  have hends : Ends w' := by simpa using ends_blank hw' (r := []) (by intro c hc; simp at hc)
  obtain ⟨m, hs⟩ := (hs (2 * (w ++ (c :: s'' ++ w')).length + 2) w' (by simp; omega) hends).2
    (fun hc => h.elim hc.1 hc.2)
  refine ⟨m, ?_⟩
  unfold jsonLoads
  rw [if_neg, skipWs_blank hw, List.cons_append, skipWs_cons hws, ← List.cons_append, hs]
  intro hb
  cases w with
  | nil =>
    simp only [List.nil_append, List.cons_append, List.head?_cons, Option.some.injEq] at hb
    exact hbom hb
  | cons d w =>
    simp only [List.cons_append, List.head?_cons, Option.some.injEq] at hb
    subst hb
    have := hw _ (List.mem_cons_self)
    revert this
    decide

/-- Whatever text is decoded successfully, be it JSON or not, and however Python reads
hexadecimal numbers, the value has neither a duplicate key nor a null member. -/
theorem C35_never_decodes (int16 : List Char → Option Int) (s : List Char) (v : JVal)
    (h : jsonLoads int16 s = .ok v) : ¬ DuplicateKey v ∧ ¬ NullMember v := by
  unfold jsonLoads at h
  split at h
  · simp at h
  · split at h
    · simp at h
    · simp at h
    · rename_i v' r hv
      split at h
      · cases h
        exact ((scan_ok int16 _).1 _ _ _ hv).1
      · simp at h

/-! ### Examples -/

/-- The value of a hexadecimal digit. -/
def hexVal (c : Char) : Option Int :=
  if '0' ≤ c ∧ c ≤ '9' then some (c.toNat - 48)
  else if 'A' ≤ c ∧ c ≤ 'F' then some (c.toNat - 55)
  else if 'a' ≤ c ∧ c ≤ 'f' then some (c.toNat - 87)
  else none

/-- A strict `int(text, 16)`. -/
def strictInt16 : List Char → Option Int
  | [a, b, c, d] => do
    let i ← hexVal a
    let j ← hexVal b
    let k ← hexVal c
    let l ← hexVal d
    pure (((i * 16 + j) * 16 + k) * 16 + l)
  | _ => none

theorem hexVal_digit {c : Char} {n : Nat} (h : HexDigit c n) : hexVal c = some (n : Int) := by
  cases h with
  | dec n h => interval_cases n <;> decide
  | upper n h => interval_cases n <;> decide
  | lower n h => interval_cases n <;> decide

theorem readsHex_strict : ReadsHex strictInt16 := by
  intro h u hh
  cases hh with
  | mk ha hb hc hd => simp [strictInt16, hexVal_digit ha, hexVal_digit hb, hexVal_digit hc, hexVal_digit hd]

def exJson : JVal :=
  .obj [([97], .arr [.null, .int (-12), .str [0x1F600, 34, 10]]), ([98], .obj [([97], .bool true)])]

theorem exJson_inside {x : JVal} (h : Inside x exJson) : x ∈ [exJson,
    .arr [.null, .int (-12), .str [0x1F600, 34, 10]], .null, .int (-12), .str [0x1F600, 34, 10],
    .obj [([97], .bool true)], .bool true] := by
  unfold exJson at h
  cases h with
  | here => simp [exJson]
  | member hm h =>
    simp only [List.mem_cons, Prod.mk.injEq, List.not_mem_nil, or_false] at hm
    rcases hm with ⟨_, rfl⟩ | ⟨_, rfl⟩
    · cases h with
      | here => simp
      | item hm h =>
        simp only [List.mem_cons, List.not_mem_nil, or_false] at hm
        rcases hm with rfl | rfl | rfl <;> cases h <;> simp
    · cases h with
      | here => simp
      | member hm h =>
        simp only [List.mem_cons, Prod.mk.injEq, List.not_mem_nil, or_false] at hm
        obtain ⟨_, rfl⟩ := hm
        cases h
        simp

example : jsonLoads strictInt16 (dump exJson) = .ok exJson := by
  refine C34_round_trip _ readsHex_strict _ ⟨?_, ?_, ?_⟩ ?_ ?_
  · intro t ht
    have := exJson_inside ht
    simp [exJson] at this
    subst this
    intro u hu
    simp at hu
    rcases hu with rfl | rfl | rfl <;> omega
  · intro t ht
    have := exJson_inside ht
    simp [exJson] at this
  · intro kvs ht
    have := exJson_inside ht
    simp [exJson] at this
    rcases this with rfl | rfl
    · intro p hp u hu
      simp at hp
      rcases hp with rfl | rfl <;> simp at hu <;> omega
    · intro p hp u hu
      simp at hp
      subst hp
      simp at hu
      omega
  · rintro ⟨kvs, ht, hn⟩
    have := exJson_inside ht
    simp [exJson] at this
    rcases this with rfl | rfl <;> exact hn (by simp)
  · rintro ⟨kvs, k, ht, hn⟩
    have := exJson_inside ht
    simp [exJson] at this
    rcases this with rfl | rfl <;> simp at hn

/-- A document with a duplicate key deep inside. -/
example : ∃ m, jsonLoads strictInt16 (dump (.arr [.obj [([97], .int 1), ([97], .int 2)]])) = .error (.cfn m) := by
  refine C35_document_rejected _ readsHex_strict _ (.arr [.obj [([97], .int 1), ([97], .int 2)]])
    ⟨[], _, [], blank_nil, blank_nil, dump_gram _ ⟨?_, ?_, ?_⟩, by simp⟩
    (.inl ⟨_, .item (List.mem_singleton.2 rfl) (.here _), by simp⟩)
  all_goals
    intro t ht
    cases ht with
    | item hm ht =>
      rw [List.mem_singleton] at hm
      subst hm
      cases ht with
      | member hm ht =>
        simp only [List.mem_cons, Prod.mk.injEq, List.not_mem_nil, or_false] at hm
        rcases hm with ⟨_, rfl⟩ | ⟨_, rfl⟩ <;> cases ht
      | _ =>
        intro p hp u hu
        simp at hp
        rcases hp with rfl | rfl <;> simp at hu <;> omega

end CfnLint
