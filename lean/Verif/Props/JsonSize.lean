import Verif.Model.JsonSize
import Verif.Spec.JsonSize
import Verif.Lemmas.Format
import Verif.Lemmas.EachDeclared
import Verif.Props.Json
import Verif.Props.Projection
/-
C106: the size of JSON documents (E3502).
-/
namespace CfnLint
open Spec

/-! ### the text of a value -/

theorem chars_plain : ∀ {s : List Char}, (∀ c ∈ s, c = '-' ∨ ('0' ≤ c ∧ c ≤ '9')) → Chars s (s.map Char.toNat)
  | [], _ => .nil
  | c :: s, h => by
    have h1 : 0x20 ≤ c.toNat ∧ c ≠ '"' ∧ c ≠ '\\' := by
      rcases h c List.mem_cons_self with rfl | ⟨h1, h2⟩
      · decide
      · have h3 : 48 ≤ c.toNat := h1
        have h4 : c.toNat ≤ 57 := h2
        refine ⟨by omega, ?_, ?_⟩
        · rintro rfl; simp at h3
        · rintro rfl; simp at h4
    exact .plain h1.2.1 h1.2.2 h1.1 (chars_plain (fun c hc => h c (List.mem_cons_of_mem _ hc)))

theorem chars_int (i : Int) : Chars (dumpInt i) ((dumpInt i).map Char.toNat) := by
  refine chars_plain (fun c hc => ?_)
  cases i with
  | ofNat n => exact .inr ((dumpNat_spec n).1.2 c hc)
  | negSucc n =>
    rcases List.mem_cons.1 hc with rfl | hc
    · exact .inl rfl
    · exact .inr ((dumpNat_spec (n + 1)).1.2 c hc)

theorem memberText_chars (k : Key) : ∃ s, memberText k = '"' :: (s ++ ['"']) ∧ Chars s (memberName k) := by
  cases k with
  | str s => exact ⟨_, encodeText_eq (scalar_codes s), dumpText_chars (scalar_codes s)⟩
  | int i => exact ⟨_, by rw [memberText, intText_eq], chars_int i⟩

mutual
theorem compact_gram : ∀ (v : Val), FloatsAreNumbers v → Gram (compact v) (.value (jsonOf v))
  | .none, _ => .null
  | .bool true, _ => .true
  | .bool false, _ => .false
  | .int i, _ => by rw [compact, intText_eq]; exact .number (dumpInt_number i)
  | .flt r, h => .number (h [] r .here)
  | .str s, _ => by
    rw [compact, encodeText_eq (scalar_codes s)]
    exact .string (dumpText_chars (scalar_codes s))
  | .list [], _ => .emptyArr blank_nil
  | .list (v :: vs), h => by
    rw [compact, jsonOf]
    exact .arr (compactItems_gram (v :: vs) (by simp) (fun i x hx => fun p r hp => h (.int i :: p) r (.idx hx hp)))
  | .dict [], _ => .emptyObj blank_nil
  | .dict ((k, v) :: kvs), h => by
    rw [compact, jsonOf]
    exact .obj (compactMembers_gram ((k, v) :: kvs) (by simp) (fun kv hm => fun p r hp => h (kv.1 :: p) r (.key hm hp)))

theorem compactItems_gram : ∀ (vs : List Val), vs ≠ [] → (∀ (i : Nat) x, vs[i]? = some x → FloatsAreNumbers x) → Gram (compactItems vs) (.items (jsonItems vs))
  | [], h, _ => absurd rfl h
  | [v], _, h => by
    have := Gram.item blank_nil (compact_gram v (h 0 v rfl)) blank_nil
    simpa [compactItems, jsonItems] using this
  | v :: w :: vs, _, h => by
    have := Gram.items blank_nil (compact_gram v (h 0 v rfl)) blank_nil (compactItems_gram (w :: vs) (by simp) (fun i x hx => h (i + 1) x hx))
    simpa [compactItems, jsonItems] using this

theorem compactMembers_gram : ∀ (kvs : List (Key × Val)), kvs ≠ [] → (∀ kv ∈ kvs, FloatsAreNumbers kv.2) → Gram (compactMembers kvs) (.members (jsonMembers kvs))
  | [], h, _ => absurd rfl h
  | [(k, v)], _, h => by
    obtain ⟨s, h1, h2⟩ := memberText_chars k
    have := Gram.member blank_nil h2 blank_nil blank_nil (compact_gram v (h _ List.mem_cons_self)) blank_nil
    simpa [compactMembers, jsonMembers, h1] using this
  | (k, v) :: kv :: kvs, _, h => by
    obtain ⟨s, h1, h2⟩ := memberText_chars k
    have := Gram.members blank_nil h2 blank_nil blank_nil (compact_gram v (h _ List.mem_cons_self)) blank_nil
      (compactMembers_gram (kv :: kvs) (by simp) (fun kv hm => h kv (List.mem_cons_of_mem _ hm)))
    simpa [compactMembers, jsonMembers, h1] using this
end

/-- C106: the text that is measured is a JSON text of the value. -/
theorem C106_text {v : Val} (h : FloatsAreNumbers v) : Gram (compact v) (.value (jsonOf v)) := compact_gram v h

/-! ### substitutions -/

theorem lastBrace_some : ∀ {l : List Char} {n : Nat}, lastBrace l = some n → ∃ m b, l = m ++ '}' :: b ∧ n = m.length + 1
  | [], n, h => by cases h
  | c :: r, n, h => by
    rw [lastBrace] at h
    split at h
    · cases h
    · split at h
      · rename_i k hk
        obtain ⟨m, b, rfl, rfl⟩ := lastBrace_some hk
        cases h
        exact ⟨c :: m, b, rfl, rfl⟩
      · split at h
        · rename_i hc
          cases h
          exact ⟨[], r, by rw [hc]; rfl, rfl⟩
        · cases h

theorem lastBrace_none : ∀ {l : List Char}, '\n' ∉ l → lastBrace l = none → '}' ∉ l
  | [], _, _ => by simp
  | c :: r, hl, h => by
    rw [lastBrace, if_neg (fun e => hl (by simp [e]))] at h
    split at h
    · cases h
    · rename_i hk
      split at h
      · cases h
      · rename_i hc
        simp only [List.mem_cons, not_or]
        exact ⟨fun e => hc e.symm, lastBrace_none (fun hm => hl (List.mem_cons_of_mem _ hm)) hk⟩

theorem lastBrace_absent : ∀ {l : List Char}, '}' ∉ l → lastBrace l = none
  | [], _ => rfl
  | c :: r, h => by
    simp only [List.mem_cons, not_or] at h
    rw [lastBrace]
    split
    · rfl
    · rw [lastBrace_absent h.2, if_neg (fun e => h.1 e.symm)]

theorem lastBrace_line : ∀ {l r : List Char}, '\n' ∉ l → lastBrace r = none → lastBrace (l ++ r) = lastBrace l
  | [], r, _, h => h
  | c :: l, r, hl, h => by
    simp only [List.mem_cons, not_or] at hl
    rw [List.cons_append, lastBrace, lastBrace, lastBrace_line hl.2 h]

theorem lastBrace_at : ∀ {m b : List Char}, '\n' ∉ m → '}' ∉ b → lastBrace (m ++ '}' :: b) = some (m.length + 1)
  | [], b, _, hb => by
    rw [List.nil_append, lastBrace, if_neg (by decide), lastBrace_absent hb]
    rfl
  | c :: m, b, hm, hb => by
    simp only [List.mem_cons, not_or] at hm
    rw [List.cons_append, lastBrace, if_neg (fun e => hm.1 e.symm), lastBrace_at hm.2 hb]
    rfl

theorem dropSubs_nil (n : Nat) : dropSubs n [] = [] := by cases n <;> rfl

theorem dropSubs_skip : ∀ (a r : List Char), dropSubs a.length (a ++ r) = dropSubs 0 r
  | [], _ => rfl
  | _ :: a, r => dropSubs_skip a r

theorem dropSubs_char {c : Char} (h : c ≠ '$') (r : List Char) : dropSubs 0 (c :: r) = c :: dropSubs 0 r := by
  rw [dropSubs]
  exact h

theorem dropSubs_dollar {r : List Char} (h : ∀ q, r ≠ '{' :: q) : dropSubs 0 ('$' :: r) = '$' :: dropSubs 0 r := by
  rw [dropSubs]
  exact fun q e => h q e

theorem dropSubs_open (q : List Char) : dropSubs 0 ('$' :: '{' :: q) = match lastBrace q with
    | some n => dropSubs n q
    | none => '$' :: '{' :: dropSubs 0 q := by
  rw [dropSubs]
  cases lastBrace q with
  | some n => rfl
  | none =>
    simp only
    rw [dropSubs_char (by decide)]

theorem dropSubs_absent : ∀ {l : List Char}, '}' ∉ l → dropSubs 0 l = l
  | [], _ => rfl
  | c :: r, h => by
    have hr : '}' ∉ r := fun hm => h (List.mem_cons_of_mem _ hm)
    by_cases hc : c = '$'
    · subst hc
      cases r with
      | nil => rfl
      | cons d q =>
        by_cases hd : d = '{'
        · subst hd
          have hq : '}' ∉ q := fun hm => hr (List.mem_cons_of_mem _ hm)
          rw [dropSubs_open, lastBrace_absent hq]
          simp only
          rw [dropSubs_absent hq]
        · rw [dropSubs_dollar (fun q e => hd (by cases e; rfl)), dropSubs_absent hr]
    · rw [dropSubs_char hc, dropSubs_absent hr]

theorem dropSubs_sublist : ∀ (l : List Char) (n : Nat), (dropSubs n l).Sublist l
  | [], n => by rw [dropSubs_nil]
  | c :: r, n + 1 => .cons _ (dropSubs_sublist r n)
  | c :: r, 0 => by
    by_cases hc : c = '$'
    · subst hc
      by_cases hq : ∃ q, r = '{' :: q
      · obtain ⟨q, rfl⟩ := hq
        rw [dropSubs]
        split
        · exact .cons _ (dropSubs_sublist _ _)
        · exact (dropSubs_sublist _ _).cons_cons _
      · rw [dropSubs_dollar (fun q e => hq ⟨q, e⟩)]
        exact (dropSubs_sublist _ _).cons_cons _
    · rw [dropSubs_char hc]
      exact (dropSubs_sublist _ _).cons_cons _

theorem dropSubs_hit : ∀ {a m b : List Char}, '\n' ∉ m → '}' ∉ b → ¬ ['$', '{'] <:+: a → dropSubs 0 (a ++ '$' :: '{' :: (m ++ '}' :: b)) = a ++ b
  | [], m, b, hm, hb, _ => by
    rw [List.nil_append, dropSubs_open, lastBrace_at hm hb]
    simp only
    have := dropSubs_skip (m ++ ['}']) b
    rw [List.length_append, List.append_assoc] at this
    exact this.trans (dropSubs_absent hb)
  | c :: a, m, b, hm, hb, ha => by
    have ih := dropSubs_hit hm hb (fun h => ha (h.trans (List.suffix_cons c a).isInfix))
    rw [List.cons_append, List.cons_append, ← ih]
    by_cases hc : c = '$'
    · subst hc
      refine dropSubs_dollar (fun q e => ?_)
      cases a with
      | nil => cases e
      | cons d a =>
        cases e
        exact ha ⟨[], a, rfl⟩
    · exact dropSubs_char hc _

theorem lastOccurrence {x : Char} : ∀ {l : List Char}, x ∈ l → ∃ a b, l = a ++ x :: b ∧ x ∉ b
  | c :: l, h => by
    by_cases hx : x ∈ l
    · obtain ⟨a, b, rfl, h2⟩ := lastOccurrence hx
      exact ⟨c :: a, b, rfl, h2⟩
    · rcases List.mem_cons.1 h with rfl | h
      · exact ⟨[], l, rfl, hx⟩
      · exact absurd h hx

theorem lineWithout_dropSubs : ∀ {l : List Char}, '\n' ∉ l → LineWithout l (dropSubs 0 l)
  | [], _ => .inr ⟨fun ⟨a, m, b, h⟩ => (by cases a <;> cases h), rfl⟩
  | c :: r, hl => by
    have hr : '\n' ∉ r := fun hm => hl (List.mem_cons_of_mem _ hm)
    have step : (c ≠ '$' ∨ ∀ q, r ≠ '{' :: q) → LineWithout (c :: r) (c :: dropSubs 0 r) := by
      intro hcr
      rcases lineWithout_dropSubs hr with ⟨a, m, b, h1, h2, h3, h4⟩ | ⟨h1, h2⟩
      · refine .inl ⟨c :: a, m, b, by rw [h1]; rfl, fun hi => ?_, h3, by rw [h4]; rfl⟩
        rcases List.infix_cons_iff.1 hi with hp | hi
        · cases a with
          | nil => exact absurd hp.length_le (by simp)
          | cons d a =>
            rw [List.cons_prefix_cons, List.cons_prefix_cons] at hp
            rcases hcr with hc | hq
            · exact hc hp.1.symm
            · exact hq _ (by rw [h1, ← hp.2.1]; rfl)
        · exact h2 hi
      · refine .inr ⟨fun ⟨a, m, b, h⟩ => ?_, by rw [h2]⟩
        cases a with
        | nil =>
          injection h with e1 e2
          rcases hcr with hc | hq
          · exact hc e1
          · exact hq _ e2
        | cons d a =>
          injection h with e1 e2
          exact h1 ⟨a, m, b, e2⟩
    by_cases hc : c = '$'
    · by_cases hq : ∃ q, r = '{' :: q
      · obtain ⟨q, rfl⟩ := hq
        subst hc
        have hnq : '\n' ∉ q := fun hm => hr (List.mem_cons_of_mem _ hm)
        by_cases hb : '}' ∈ q
        · obtain ⟨m, b, e, hbb⟩ := lastOccurrence hb
          subst e
          rw [show '$' :: '{' :: (m ++ '}' :: b) = [] ++ '$' :: '{' :: (m ++ '}' :: b) from rfl,
            dropSubs_hit (fun hm => hnq (List.mem_append_left _ hm)) hbb (by simp)]
          exact .inl ⟨[], m, b, rfl, by simp, hbb, rfl⟩
        · rw [dropSubs_open, lastBrace_absent hb]
          simp only
          rw [dropSubs_absent hb]
          refine .inr ⟨fun ⟨a, m, b, h⟩ => ?_, rfl⟩
          have h1 : '}' ∈ '$' :: '{' :: q := by rw [h]; simp
          simp at h1
          exact hb h1
      · have := step (.inr (fun q e => hq ⟨q, e⟩))
        rw [hc] at this ⊢
        rw [dropSubs_dollar (fun q e => hq ⟨q, e⟩)]
        exact this
    · rw [dropSubs_char hc]
      exact step (.inl hc)

theorem lineWithout_unique {l o : List Char} (hl : '\n' ∉ l) (h : LineWithout l o) : dropSubs 0 l = o := by
  rcases h with ⟨a, m, b, rfl, h2, h3, rfl⟩ | ⟨h1, rfl⟩
  · exact dropSubs_hit (fun hm => hl (by simp [hm])) h3 h2
  · rcases lineWithout_dropSubs hl with ⟨a, m, b, h2, -⟩ | ⟨-, h2⟩
    · exact absurd ⟨a, m, b, h2⟩ h1
    · exact h2

theorem dropSubs_lines : ∀ (n : Nat) {l : List Char} (r : List Char), l.length ≤ n → '\n' ∉ l → dropSubs 0 (l ++ '\n' :: r) = dropSubs 0 l ++ '\n' :: dropSubs 0 r
  | _, [], r, _, _ => by rw [List.nil_append, dropSubs_char (by decide)]; rfl
  | n + 1, c :: l, r, hn, hl => by
    have hl' : '\n' ∉ l := fun hm => hl (List.mem_cons_of_mem _ hm)
    have hn' : l.length ≤ n := by simpa using hn
    have ih := dropSubs_lines n r hn' hl'
    rw [List.cons_append]
    by_cases hc : c = '$'
    · subst hc
      by_cases hq : ∃ q, l = '{' :: q
      · obtain ⟨q, rfl⟩ := hq
        have hnq : '\n' ∉ q := fun hm => hl' (List.mem_cons_of_mem _ hm)
        have hq' : q.length ≤ n := by simp at hn'; omega
        rw [List.cons_append, dropSubs_open, dropSubs_open, lastBrace_line hnq (by rfl)]
        cases hb : lastBrace q with
        | none =>
          simp only
          rw [dropSubs_lines n r hq' hnq]
          rfl
        | some k =>
          simp only
          obtain ⟨m, b, rfl, rfl⟩ := lastBrace_some hb
          have h1 : ∀ t, dropSubs (m.length + 1) (m ++ '}' :: t) = dropSubs 0 t := by
            intro t
            have := dropSubs_skip (m ++ ['}']) t
            rw [List.length_append, List.append_assoc] at this
            exact this
          rw [List.append_assoc, List.cons_append, h1, h1]
          exact dropSubs_lines n r (by simp at hq'; omega) (fun hm => hnq (by simp [hm]))
      · have hq1 : ∀ q, l ≠ '{' :: q := fun q e => hq ⟨q, e⟩
        have hq2 : ∀ q, l ++ '\n' :: r ≠ '{' :: q := by
          intro q e
          cases l with
          | nil => cases e
          | cons d l => injection e with e1 e2; exact hq1 l (by rw [e1])
        rw [dropSubs_dollar hq1, dropSubs_dollar hq2, ih]
        rfl
    · rw [dropSubs_char hc, dropSubs_char hc, ih]
      rfl

theorem linesWithout_dropSubs : ∀ (n : Nat) (l : List Char), l.length ≤ n → LinesWithout l (dropSubs 0 l)
  | 0, [], _ => .last (by simp) (lineWithout_dropSubs (by simp))
  | n + 1, l, hn => by
    by_cases h : '\n' ∈ l
    · obtain ⟨a, b, rfl, ha⟩ := List.eq_append_cons_of_mem h
      rw [dropSubs_lines _ b (Nat.le_refl _) ha]
      exact .more ha (lineWithout_dropSubs ha) (linesWithout_dropSubs n b (by simp at hn; omega))
    · exact .last h (lineWithout_dropSubs h)

/-- C106: from each line of a substitution all is left out from the first `${` to the last `}`. -/
theorem C106_lines (s o : List Char) : dropSubs 0 s = o ↔ LinesWithout s o := by
  constructor
  · rintro rfl
    exact linesWithout_dropSubs _ s (Nat.le_refl _)
  · intro h
    induction h with
    | last hl h => exact lineWithout_unique hl h
    | more hl h _ ih => rw [dropSubs_lines _ _ (Nat.le_refl _) hl, lineWithout_unique hl h, ih]

/-- C106: text between two placeholders of a line is not counted. -/
theorem C106_between {a x m y b : List Char} (ha : '\n' ∉ a ++ x ++ m ++ y ++ b) (h1 : ¬ ['$', '{'] <:+: a) (h2 : '}' ∉ b) :
    dropSubs 0 (a ++ '$' :: '{' :: (x ++ '}' :: (m ++ '$' :: '{' :: (y ++ '}' :: b)))) = a ++ b := by
  have := dropSubs_hit (a := a) (m := x ++ '}' :: (m ++ '$' :: '{' :: y)) (b := b) (by simp_all) h2 h1
  simpa using this

/-! ### functions -/

theorem functionNames_keys (k : Key) : k ∈ functionNames.map Key.str ↔ ∃ f, k = .str f ∧ f ∈ jsonFunctions := by
  rw [List.mem_map]
  constructor
  · rintro ⟨f, h, rfl⟩; exact ⟨f, rfl, h⟩
  · rintro ⟨f, rfl, h⟩; exact ⟨f, h, rfl⟩

theorem removeFns_many {kvs : List (Key × Val)} (h : ∀ k v, kvs ≠ [(k, v)]) : removeFns (.dict kvs) = match removeFnsMembers kvs with
    | .error e => .error e
    | .ok l => .ok (.dict l) := by
  match kvs with
  | [] => rfl
  | [(k, v)] => exact absurd rfl (h k v)
  | _ :: _ :: _ => rfl

mutual
theorem measured_of : ∀ {v w : Val}, removeFns v = .ok w → Measured v w
  | .dict [(k, v)], w, h => by
    rw [removeFns] at h
    split at h
    · rename_i hk
      obtain ⟨f, rfl, hf⟩ := (functionNames_keys k).1 hk
      split at h
      · rename_i hs
        cases hs
        match v, h with
        | .str s, h => cases h; exact .text (by rw [String.toList_ofList]; exact (C106_lines _ _).1 rfl)
        | .list (.str s :: r), h => cases h; exact .withNames (by rw [String.toList_ofList]; exact (C106_lines _ _).1 rfl)
        | .none, h => cases h; exact .noText (by simp) (by simp)
        | .bool _, h => cases h; exact .noText (by simp) (by simp)
        | .int _, h => cases h; exact .noText (by simp) (by simp)
        | .flt _, h => cases h; exact .noText (by simp) (by simp)
        | .dict _, h => cases h; exact .noText (by simp) (by simp)
      · rename_i hs
        cases h
        exact .function hf (fun e => hs (by rw [e]))
    · rename_i hk
      split at h
      · cases h
      · rename_i w' hw
        cases h
        exact .object (fun ⟨f, x, e, hf⟩ => hk (by injection e with e1 e2; injection e1 with e3 e4; exact (functionNames_keys k).2 ⟨f, e3, hf⟩)) (.cons (measured_of hw) .nil)
  | .dict [], w, h => by
    cases h
    exact .object (fun ⟨f, x, e, _⟩ => by cases e) .nil
  | .dict ((k, v) :: kv :: kvs), w, h => by
    rw [removeFns_many (by simp)] at h
    split at h
    · cases h
    · rename_i l hl
      cases h
      exact .object (fun ⟨f, x, e, _⟩ => by cases e) (measuredMembers_of hl)
  | .list xs, w, h => by
    rw [removeFns] at h
    split at h
    · cases h
    · rename_i l hl
      cases h
      exact .list (measuredItems_of hl)
  | .none, w, h => by cases h; exact .scalar (by simp) (by simp)
  | .bool _, w, h => by cases h; exact .scalar (by simp) (by simp)
  | .int _, w, h => by cases h; exact .scalar (by simp) (by simp)
  | .flt _, w, h => by cases h; exact .scalar (by simp) (by simp)
  | .str _, w, h => by cases h; exact .scalar (by simp) (by simp)

theorem measuredMembers_of : ∀ {kvs ws : List (Key × Val)}, removeFnsMembers kvs = .ok ws → MeasuredMembers kvs ws
  | [], ws, h => by cases h; exact .nil
  | (k, v) :: kvs, ws, h => by
    rw [removeFnsMembers] at h
    split at h
    · cases h
    · rename_i w hw
      split at h
      · cases h
      · rename_i l hl
        cases h
        exact .cons (measured_of hw) (measuredMembers_of hl)

theorem measuredItems_of : ∀ {xs ws : List Val}, removeFnsItems xs = .ok ws → MeasuredItems xs ws
  | [], ws, h => by cases h; exact .nil
  | v :: vs, ws, h => by
    rw [removeFnsItems] at h
    split at h
    · cases h
    · rename_i w hw
      split at h
      · cases h
      · rename_i l hl
        cases h
        exact .cons (measured_of hw) (measuredItems_of hl)
end

mutual
theorem removeFns_of : ∀ {v w : Val}, Measured v w → removeFns v = .ok w
  | _, _, .text h => by
    rw [removeFns, if_pos (by decide +kernel), if_pos rfl]
    simp only [subValue, (C106_lines _ _).2 h, String.ofList_toList]
  | _, _, .withNames h => by
    rw [removeFns, if_pos (by decide +kernel), if_pos rfl]
    simp only [subValue, (C106_lines _ _).2 h, String.ofList_toList]
  | _, _, .noText (x := x) h1 h2 => by
    rw [removeFns, if_pos (by decide +kernel), if_pos rfl]
    cases x with
    | str s => exact absurd rfl (h1 s)
    | list xs => exact absurd rfl (h2 xs)
    | _ => rfl
  | _, _, .function hf hs => by
    rw [removeFns, if_pos ((functionNames_keys _).2 ⟨_, rfl, hf⟩), if_neg (fun e => hs (by cases e; rfl))]
  | _, _, .object (kvs := kvs) (ws := ws) hn hm => by
    have := removeFnsMembers_of hm
    match kvs, this with
    | [], this => cases this; rfl
    | [(k, v)], this =>
      rw [removeFns, if_neg (fun h => hn (by
        obtain ⟨f, rfl, hf⟩ := (functionNames_keys k).1 h
        exact ⟨f, v, rfl, hf⟩))]
      rw [removeFnsMembers] at this
      split at this
      · cases this
      · rename_i w hw
        cases this
        rfl
    | a :: b :: l, this => rw [removeFns_many (by simp), this]
  | _, _, .list hm => by rw [removeFns, removeFnsItems_of hm]
  | .none, _, .scalar _ _ => rfl
  | .bool _, _, .scalar _ _ => rfl
  | .int _, _, .scalar _ _ => rfl
  | .flt _, _, .scalar _ _ => rfl
  | .str _, _, .scalar _ _ => rfl
  | .dict _, _, .scalar h _ => absurd rfl (h _)
  | .list _, _, .scalar _ h => absurd rfl (h _)

theorem removeFnsMembers_of : ∀ {kvs ws : List (Key × Val)}, MeasuredMembers kvs ws → removeFnsMembers kvs = .ok ws
  | _, _, .nil => rfl
  | _, _, .cons h hs => by rw [removeFnsMembers, removeFns_of h, removeFnsMembers_of hs]

theorem removeFnsItems_of : ∀ {xs ws : List Val}, MeasuredItems xs ws → removeFnsItems xs = .ok ws
  | _, _, .nil => rfl
  | _, _, .cons h hs => by rw [removeFnsItems, removeFns_of h, removeFnsItems_of hs]
end

/-- C106: what is measured is the document with its substitutions reduced to their texts. -/
theorem C106_measured (v w : Val) : removeFns v = .ok w ↔ Measured v w := ⟨measured_of, removeFns_of⟩

theorem flatMap_length_le {α β : Type} (f : α → List β) {l l' : List α} (h : l.Sublist l') : (l.flatMap f).length ≤ (l'.flatMap f).length := by
  induction h with
  | slnil => exact Nat.le_refl _
  | cons a _ ih => rw [List.flatMap_cons, List.length_append]; omega
  | cons_cons a _ ih => rw [List.flatMap_cons, List.flatMap_cons, List.length_append, List.length_append]; omega

theorem encodeText_dropSubs (s : String) : (encodeText (codes (String.ofList (dropSubs 0 s.toList)))).length ≤ (encodeText (codes s)).length := by
  have := flatMap_length_le encodeChar ((dropSubs_sublist s.toList 0).map Char.toNat)
  simp only [encodeText, codes, String.toList_ofList, List.length_cons, List.length_append]
  omega

mutual
theorem removeFns_le : ∀ {v w : Val}, removeFns v = .ok w → (compact w).length ≤ (compact v).length
  | .dict [(k, v)], w, h => by
    rw [removeFns] at h
    split at h
    · split at h
      · match v, h with
        | .str s, h =>
          cases h
          have := encodeText_dropSubs s
          simp only [compact, compactMembers, List.length_cons, List.length_append]
          omega
        | .list (.str s :: []), h =>
          cases h
          have := encodeText_dropSubs s
          simp only [compact, compactMembers, compactItems, List.length_cons, List.length_append]
          omega
        | .list (.str s :: x :: r), h =>
          cases h
          have := encodeText_dropSubs s
          simp only [compact, compactMembers, compactItems, List.length_cons, List.length_append]
          omega
        | .none, h => cases h; exact Nat.le_refl _
        | .bool _, h => cases h; exact Nat.le_refl _
        | .int _, h => cases h; exact Nat.le_refl _
        | .flt _, h => cases h; exact Nat.le_refl _
        | .dict _, h => cases h; exact Nat.le_refl _
      · cases h; exact Nat.le_refl _
    · split at h
      · cases h
      · rename_i w' hw
        cases h
        have := removeFns_le hw
        simp only [compact, compactMembers, List.length_cons, List.length_append]
        omega
  | .dict [], w, h => by cases h; exact Nat.le_refl _
  | .dict ((k, v) :: kv :: kvs), w, h => by
    rw [removeFns_many (by simp)] at h
    split at h
    · cases h
    · rename_i l hl
      cases h
      have := removeFnsMembers_le hl
      simp only [compact, List.length_cons, List.length_append]
      omega
  | .list xs, w, h => by
    rw [removeFns] at h
    split at h
    · cases h
    · rename_i l hl
      cases h
      have := removeFnsItems_le hl
      simp only [compact, List.length_cons, List.length_append]
      omega
  | .none, w, h => by cases h; exact Nat.le_refl _
  | .bool _, w, h => by cases h; exact Nat.le_refl _
  | .int _, w, h => by cases h; exact Nat.le_refl _
  | .flt _, w, h => by cases h; exact Nat.le_refl _
  | .str _, w, h => by cases h; exact Nat.le_refl _

theorem removeFnsMembers_le : ∀ {kvs ws : List (Key × Val)}, removeFnsMembers kvs = .ok ws → (compactMembers ws).length ≤ (compactMembers kvs).length
  | [], ws, h => by cases h; exact Nat.le_refl _
  | (k, v) :: kvs, ws, h => by
    rw [removeFnsMembers] at h
    split at h
    · cases h
    · rename_i w hw
      split at h
      · cases h
      · rename_i l hl
        cases h
        have h1 := removeFns_le hw
        have h2 := removeFnsMembers_le hl
        match kvs, l, hl, h2 with
        | [], l, hl, h2 =>
          cases hl
          simp only [compactMembers, List.length_cons, List.length_append]
          omega
        | (k', v') :: kvs, l, hl, h2 =>
          match l, hl, h2 with
          | [], hl, h2 => cases measuredMembers_of hl
          | a :: l, hl, h2 =>
            simp only [compactMembers, List.length_cons, List.length_append]
            omega

theorem removeFnsItems_le : ∀ {xs ws : List Val}, removeFnsItems xs = .ok ws → (compactItems ws).length ≤ (compactItems xs).length
  | [], ws, h => by cases h; exact Nat.le_refl _
  | v :: vs, ws, h => by
    rw [removeFnsItems] at h
    split at h
    · cases h
    · rename_i w hw
      split at h
      · cases h
      · rename_i l hl
        cases h
        have h1 := removeFns_le hw
        have h2 := removeFnsItems_le hl
        match vs, l, hl, h2 with
        | [], l, hl, h2 =>
          cases hl
          simpa only [compactItems] using h1
        | v' :: vs, l, hl, h2 =>
          match l, hl, h2 with
          | [], hl, h2 => cases measuredItems_of hl
          | a :: l, hl, h2 =>
            simp only [compactItems, List.length_cons, List.length_append]
            omega
end

/-- C106: what is measured is not longer than the document. -/
theorem C106_not_longer {v w : Val} (h : Measured v w) : (compact w).length ≤ (compact v).length := removeFns_le (removeFns_of h)

theorem noFunction_uses {kvs : List (Key × Val)} (h : NoFunctionIn (.dict kvs)) : ¬ UsesFunction kvs := by
  rintro ⟨f, x, rfl, hf⟩
  exact h [] f x .here hf

theorem noFunction_member {kvs : List (Key × Val)} (h : NoFunctionIn (.dict kvs)) : ∀ kv ∈ kvs, NoFunctionIn kv.2 :=
  fun kv hm p f x hat => h (kv.1 :: p) f x (.key hm hat)

theorem noFunction_item {xs : List Val} (h : NoFunctionIn (.list xs)) : ∀ x ∈ xs, NoFunctionIn x := by
  intro x hm p f y hat
  obtain ⟨i, hi⟩ := List.getElem?_of_mem hm
  exact h (.int i :: p) f y (.idx hi hat)

mutual
theorem measured_same : ∀ {v : Val}, NoFunctionIn v → Measured v v
  | .dict _, h => .object (noFunction_uses h) (measuredMembers_same (noFunction_member h))
  | .list _, h => .list (measuredItems_same (noFunction_item h))
  | .none, _ => .scalar (by simp) (by simp)
  | .bool _, _ => .scalar (by simp) (by simp)
  | .int _, _ => .scalar (by simp) (by simp)
  | .flt _, _ => .scalar (by simp) (by simp)
  | .str _, _ => .scalar (by simp) (by simp)

theorem measuredMembers_same : ∀ {kvs : List (Key × Val)}, (∀ kv ∈ kvs, NoFunctionIn kv.2) → MeasuredMembers kvs kvs
  | [], _ => .nil
  | (_, _) :: _, h => .cons (measured_same (h _ List.mem_cons_self)) (measuredMembers_same (fun kv hm => h kv (List.mem_cons_of_mem _ hm)))

theorem measuredItems_same : ∀ {xs : List Val}, (∀ x ∈ xs, NoFunctionIn x) → MeasuredItems xs xs
  | [], _ => .nil
  | _ :: _, h => .cons (measured_same (h _ List.mem_cons_self)) (measuredItems_same (fun kv hm => h kv (List.mem_cons_of_mem _ hm)))
end

/-- C106: a document that uses no functions is measured as it is. -/
theorem C106_no_functions {v : Val} (h : NoFunctionIn v) (w : Val) : Measured v w ↔ w = v := by
  constructor
  · intro hw
    have := removeFns_of hw
    rw [removeFns_of (measured_same h)] at this
    cases this
    rfl
  · rintro rfl
    exact measured_same h

theorem subsTexts_member {kvs : List (Key × Val)} (h : SubsAreTexts (.dict kvs)) : ∀ kv ∈ kvs, SubsAreTexts kv.2 :=
  fun kv hm p xs hat => h (kv.1 :: p) xs (.key hm hat)

theorem subsTexts_item {xs : List Val} (h : SubsAreTexts (.list xs)) : ∀ x ∈ xs, SubsAreTexts x := by
  intro x hm p ys hat
  obtain ⟨i, hi⟩ := List.getElem?_of_mem hm
  exact h (.int i :: p) ys (.idx hi hat)

mutual
theorem measured_exists : ∀ {v : Val}, SubsAreTexts v → ∃ w, Measured v w
  | .dict kvs, h => by
    by_cases hu : UsesFunction kvs
    · obtain ⟨f, x, rfl, hf⟩ := hu
      by_cases hs : f = "Fn::Sub"
      · subst hs
        match x with
        | .str s => exact ⟨_, .text (o := String.ofList (dropSubs 0 s.toList)) (by rw [String.toList_ofList]; exact (C106_lines _ _).1 rfl)⟩
        | .list xs =>
          obtain ⟨s, r, rfl⟩ := h [] xs .here
          exact ⟨_, .withNames (o := String.ofList (dropSubs 0 s.toList)) (by rw [String.toList_ofList]; exact (C106_lines _ _).1 rfl)⟩
        | .none => exact ⟨_, .noText (by simp) (by simp)⟩
        | .bool _ => exact ⟨_, .noText (by simp) (by simp)⟩
        | .int _ => exact ⟨_, .noText (by simp) (by simp)⟩
        | .flt _ => exact ⟨_, .noText (by simp) (by simp)⟩
        | .dict _ => exact ⟨_, .noText (by simp) (by simp)⟩
      · exact ⟨_, .function hf hs⟩
    · obtain ⟨ws, hw⟩ := measuredMembers_exists (subsTexts_member h)
      exact ⟨_, .object hu hw⟩
  | .list xs, h => by
    obtain ⟨ws, hw⟩ := measuredItems_exists (subsTexts_item h)
    exact ⟨_, .list hw⟩
  | .none, _ => ⟨_, .scalar (by simp) (by simp)⟩
  | .bool _, _ => ⟨_, .scalar (by simp) (by simp)⟩
  | .int _, _ => ⟨_, .scalar (by simp) (by simp)⟩
  | .flt _, _ => ⟨_, .scalar (by simp) (by simp)⟩
  | .str _, _ => ⟨_, .scalar (by simp) (by simp)⟩

theorem measuredMembers_exists : ∀ {kvs : List (Key × Val)}, (∀ kv ∈ kvs, SubsAreTexts kv.2) → ∃ ws, MeasuredMembers kvs ws
  | [], _ => ⟨_, .nil⟩
  | (_, _) :: _, h => by
    obtain ⟨w, h1⟩ := measured_exists (h _ List.mem_cons_self)
    obtain ⟨ws, h2⟩ := measuredMembers_exists (fun kv hm => h kv (List.mem_cons_of_mem _ hm))
    exact ⟨_, .cons h1 h2⟩

theorem measuredItems_exists : ∀ {xs : List Val}, (∀ x ∈ xs, SubsAreTexts x) → ∃ ws, MeasuredItems xs ws
  | [], _ => ⟨_, .nil⟩
  | _ :: _, h => by
    obtain ⟨w, h1⟩ := measured_exists (h _ List.mem_cons_self)
    obtain ⟨ws, h2⟩ := measuredItems_exists (fun kv hm => h kv (List.mem_cons_of_mem _ hm))
    exact ⟨_, .cons h1 h2⟩
end

/-! ### the rule -/

/-- the document is too long for the limit -/
def TooLong (n : Nat) (doc : Val) : Prop := ∃ w, Measured doc w ∧ n < (compact w).length

theorem sizeOver_eq {n : Nat} {prop : String} {kvs : List (Key × Val)} {doc : Val} (hd : dlookup (Key.str prop) kvs = some doc) (hs : SubsAreTexts doc) :
    ∃ b, sizeOver (some n) prop (.dict kvs) = .ok b ∧ (b = true ↔ TooLong n doc) := by
  obtain ⟨w, hw⟩ := measured_exists hs
  have hr := removeFns_of hw
  refine ⟨decide (n < (compact w).length), by simp only [sizeOver, hd, hr], ?_⟩
  rw [decide_eq_true_iff]
  constructor
  · exact fun h => ⟨w, hw, h⟩
  · rintro ⟨w', h1, h2⟩
    have := removeFns_of h1
    rw [hr] at this
    cases this
    exact h2

/-- C106: the scenarios with a finding are those in which the document is too long. -/
theorem C106_scenarios {scs : List Scenario} {n : Nat} {prop : String} {obj : Val} {sets : List (Option Scenario × Val)} (hs : objectsDeep scs obj = .ok sets)
    (hd : ∀ s ∈ sets, ∃ kvs doc, s.2 = .dict kvs ∧ dlookup (Key.str prop) kvs = some doc ∧ SubsAreTexts doc) :
    ∃ l, sizeCheck scs (some n) prop obj = .ok l ∧ ∀ sc, sc ∈ l ↔ ∃ s ∈ sets, ∃ kvs doc, s.2 = .dict kvs ∧ dlookup (Key.str prop) kvs = some doc ∧ TooLong n doc ∧
      ((sc = s.1 ∧ ∃ e r, s.1 = some (e :: r)) ∨ (sc = none ∧ ∀ e r, s.1 ≠ some (e :: r))) := by
  unfold sizeCheck
  simp only [hs]
  refine collectM_spec (fun s hm => ?_)
  obtain ⟨kvs, doc, h1, h2, h3⟩ := hd s hm
  obtain ⟨b, h4, h5⟩ := sizeOver_eq (n := n) h2 h3
  rw [h1, h4]
  have hname : ∀ o : Option Scenario, ((namesScenario o = true ↔ ∃ e r, o = some (e :: r))) := by
    intro o
    match o with
    | none => simp [namesScenario]
    | some [] => simp [namesScenario]
    | some (e :: r) => simp [namesScenario]
  cases b with
  | false =>
    refine ⟨[], rfl, fun sc => ⟨fun h => (by cases h), ?_⟩⟩
    rintro ⟨kvs', doc', h6, h7, h8, -⟩
    cases h6
    rw [h2] at h7
    cases h7
    exact absurd (h5.2 h8) (by simp)
  | true =>
    refine ⟨_, rfl, fun sc => ?_⟩
    rw [List.mem_singleton]
    constructor
    · intro h
      refine ⟨kvs, doc, rfl, h2, h5.1 rfl, ?_⟩
      split at h
      · rename_i hn
        exact .inl ⟨h, (hname _).1 hn⟩
      · rename_i hn
        exact .inr ⟨h, fun e r he => hn ((hname _).2 ⟨e, r, he⟩)⟩
    · rintro ⟨_, _, -, -, -, h | h⟩
      · rw [if_pos ((hname _).2 h.2)]; exact h.1
      · rw [if_neg (fun hn => by obtain ⟨e, r, he⟩ := (hname _).1 hn; exact h.2 e r he)]; exact h.1

/-- C106: where no conditions are used, the findings are the properties whose documents are too long. -/
theorem C106_exact_partial {below : Path → List Scenario} {rows : List (String × Option Nat)} {kvs : List (Key × Val)} {path : Path} (hw : (Val.dict kvs).WF)
    (hrows : (rows.map Prod.fst).Nodup) (hlim : ∀ prop lim, (prop, lim) ∈ rows → ∃ n, lim = some n ∧ prop ≠ "Ref")
    (ho : ∀ q u, Leaf (.dict kvs) q u → ∃ l, u = .dict l) (hb : ∀ q, below (path ++ q) = [])
    (hs : ∀ q l prop lim doc, Leaf (.dict kvs) q (.dict l) → (prop, lim) ∈ rows → (Key.str prop, doc) ∈ l → SubsAreTexts doc) :
    Finds (jsonSizeRule below rows (.dict kvs) path) path (fun x => ∃ q l prop n doc, Leaf (.dict kvs) q (.dict l) ∧ (prop, some n) ∈ rows ∧ (Key.str prop, doc) ∈ l ∧
      doc ≠ noValue ∧ TooLong n doc ∧ x = q ++ [.str prop]) := by
  refine finds_congr (eachDeclared_dict (F := fun l prop lim y => ∃ n doc, lim = some n ∧ (Key.str prop, doc) ∈ l ∧ TooLong n doc ∧ y = [.str prop]) hw ho ?_) ?_
  · intro q l prop lim doc hl hv hne hr
    have hr' := dlookup_mem hr
    obtain ⟨n, rfl, href⟩ := hlim prop lim hr'
    have hnd : (l.map Prod.fst).Nodup := (at_wf (leaf_at hl) hw).1
    have hd : dlookup (Key.str prop) (l.filter (fun kv => decide (kv.2 ≠ noValue))) = some doc := dlookup_filter_ne hnd hv hne
    have hobj : objectsDeep (below (path ++ q)) (withoutNoValue (.dict l)) = .ok [(none, withoutNoValue (.dict l))] := by
      rw [hb]
      refine (C32_deep_no_scenarios _).2.2 (fun e => ?_) (.inl ⟨_, rfl⟩)
      simp only [withoutNoValue, Val.dict.injEq] at e
      rw [e] at hd
      simp only [dlookup] at hd
      split at hd
      · rename_i h; exact href (by simpa using h.symm)
      · cases hd
    obtain ⟨r, h1, h2⟩ := C106_scenarios (n := n) (prop := prop) hobj (by
      intro s hm
      rw [List.mem_singleton] at hm
      subst hm
      exact ⟨_, doc, rfl, hd, hs q l prop _ doc hl hr' hv⟩)
    refine ⟨_, by simp only [h1]; rfl, fun m => ?_⟩
    rw [List.mem_map]
    constructor
    · rintro ⟨sc, hsc, rfl⟩
      obtain ⟨s, hm, kvs', doc', h3, h4, h5, -⟩ := (h2 sc).1 hsc
      rw [List.mem_singleton] at hm
      subst hm
      simp only [withoutNoValue, Val.dict.injEq] at h3
      rw [← h3, hd] at h4
      cases h4
      exact ⟨_, rfl, n, doc, rfl, hv, h5, rfl⟩
    · rintro ⟨_, rfl, n', doc', e, hv', h5, rfl⟩
      cases e
      have : doc' = doc := by
        have h6 := dlookup_of_mem hnd hv'
        rw [dlookup_of_mem hnd hv] at h6
        cases h6; rfl
      subst this
      exact ⟨none, (h2 none).2 ⟨_, List.mem_singleton.2 rfl, _, _, rfl, hd, h5, .inr ⟨rfl, by simp⟩⟩, rfl⟩
  · intro x
    constructor
    · rintro ⟨q, l, prop, lim, v, y, h1, h2, h3, h4, ⟨n, doc, rfl, h5, h6, rfl⟩, rfl⟩
      refine ⟨q, l, prop, n, doc, h1, dlookup_mem h4, h5, ?_, h6, rfl⟩
      have hnd : (l.map Prod.fst).Nodup := (at_wf (leaf_at h1) hw).1
      have := dlookup_of_mem hnd h2
      rw [dlookup_of_mem hnd h5] at this
      cases this
      exact h3
    · rintro ⟨q, l, prop, n, doc, h1, h2, h3, h4, h5, rfl⟩
      exact ⟨q, l, prop, some n, doc, _, h1, h3, h4, dlookup_of_mem hrows h2, ⟨n, doc, rfl, h3, h5, rfl⟩, rfl⟩

/-- C106: a document is only reported when its own text is longer than the limit. -/
theorem C106_sound {n : Nat} {doc : Val} (h : TooLong n doc) : n < (compact doc).length := by
  obtain ⟨w, h1, h2⟩ := h
  exact Nat.lt_of_lt_of_le h2 (C106_not_longer h1)

/-- C106: a document that uses no functions is reported exactly when its text is longer than the limit. -/
theorem C106_plain {n : Nat} {doc : Val} (h : NoFunctionIn doc) : TooLong n doc ↔ n < (compact doc).length :=
  ⟨C106_sound, fun hn => ⟨doc, (C106_no_functions h doc).2 rfl, hn⟩⟩

/-- C106, in full: the text of a substitution that is outside of its placeholders is counted. -/
def C106_statement : Prop :=
  ∀ (n : Nat) (a x m y b : String), (∀ c ∈ (a ++ x ++ m ++ y ++ b).toList, c ∉ ['$', '{', '}', '\n']) → n < a.length + m.length + b.length →
    TooLong n (.dict [(.str "Fn::Sub", .str (a ++ "${" ++ x ++ "}" ++ m ++ "${" ++ y ++ "}" ++ b))])

/-- C106: between the first and the last placeholder of a line there can be a text of any length. -/
theorem C106_violated : ¬ C106_statement := by
  intro h
  obtain ⟨w, h1, h2⟩ := h 2 "" "A" "long" "B" "" (by decide +kernel) (by decide +kernel)
  have h3 := removeFns_of h1
  have h4 : removeFns (.dict [(.str "Fn::Sub", .str ("" ++ "${" ++ "A" ++ "}" ++ "long" ++ "${" ++ "B" ++ "}" ++ ""))]) = .ok (.str "") := by decide +kernel
  rw [h4] at h3
  cases h3
  exact absurd h2 (by decide +kernel)

/-- C106: a value type without a limit ends the rule with an error at the first document. -/
theorem C106_no_limit_raises {scs : List Scenario} {prop : String} {obj doc : Val} {sc : Option Scenario} {kvs : List (Key × Val)} {rest : List (Option Scenario × Val)}
    (hs : objectsDeep scs obj = .ok ((sc, .dict kvs) :: rest)) (hd : dlookup (Key.str prop) kvs = some doc) (ht : SubsAreTexts doc) :
    ∃ m, sizeCheck scs none prop obj = .error (.typeError m) := by
  obtain ⟨w, hw⟩ := measured_exists ht
  unfold sizeCheck
  simp only [hs, collectM, sizeOver, hd, removeFns_of hw]
  exact ⟨_, rfl⟩

/-- C106: a scenario in which the property is missing ends the rule with an error. -/
theorem C106_missing_raises {scs : List Scenario} {limit : Option Nat} {prop : String} {obj : Val} {sc : Option Scenario} {kvs : List (Key × Val)}
    {rest : List (Option Scenario × Val)} (hs : objectsDeep scs obj = .ok ((sc, .dict kvs) :: rest)) (hd : ∀ doc, (Key.str prop, doc) ∉ kvs) :
    sizeCheck scs limit prop obj = .error (.keyError prop) := by
  have : dlookup (Key.str prop) kvs = none := by
    cases h : dlookup (Key.str prop) kvs with
    | none => rfl
    | some v => exact absurd (dlookup_mem h) (hd v)
  unfold sizeCheck
  simp only [hs, collectM, sizeOver, this]

example : sizeCheck [] (some 10) "Doc" (.dict [(.str "Other", .int 1)]) = .error (.keyError "Doc") :=
  C106_missing_raises (sc := none) (rest := []) rfl (by simp)

/-- C106: a `Fn::Sub` with an empty list ends the rule with an error. -/
theorem C106_empty_sub_raises {prop : String} {kvs : List (Key × Val)} {r : List (Key × Val)}
    (hd : dlookup (Key.str prop) kvs = some (.dict ((.str "Statement", .dict [(.str "Fn::Sub", .list [])]) :: r))) (limit : Option Nat) :
    ∃ m, sizeOver limit prop (.dict kvs) = .error (.indexError m) := by
  have h1 : removeFns (.dict [(.str "Fn::Sub", .list [])]) = .error (.indexError "list index out of range") := by decide +kernel
  refine ⟨"list index out of range", ?_⟩
  simp only [sizeOver, hd]
  have h2 : removeFns (.dict ((.str "Statement", .dict [(.str "Fn::Sub", .list [])]) :: r)) = .error (.indexError "list index out of range") := by
    cases r with
    | nil => rw [removeFns, if_neg (by decide +kernel), h1]
    | cons a r => rw [removeFns_many (by simp), removeFnsMembers, h1]
  rw [h2]

/-! ### examples -/

def exTrust : Val := .dict [(.str "Version", .str "2012-10-17"), (.str "Statement", .list [.dict [(.str "Effect", .str "Allow"), (.str "Resource",
  .dict [(.str "Fn::Sub", .str "arn:${AWS::Partition}:iam::${AWS::AccountId}:root")])]])]

example : compact exTrust =
    "{\"Version\":\"2012-10-17\",\"Statement\":[{\"Effect\":\"Allow\",\"Resource\":{\"Fn::Sub\":\"arn:${AWS::Partition}:iam::${AWS::AccountId}:root\"}}]}".toList := by
  decide +kernel

/-- the part `:iam::` is not counted -/
example : removeFns exTrust = .ok (.dict [(.str "Version", .str "2012-10-17"), (.str "Statement", .list [.dict [(.str "Effect", .str "Allow"), (.str "Resource",
    .str "arn::root")]])]) := by decide +kernel

example : jsonSizeRule (fun _ => []) [("AssumeRolePolicyDocument", some 50)] (.dict [(.str "AssumeRolePolicyDocument", exTrust)]) [] = .ok [[.str "AssumeRolePolicyDocument"]] := by
  decide +kernel

example : jsonSizeRule (fun _ => []) [("AssumeRolePolicyDocument", some 150)] (.dict [(.str "AssumeRolePolicyDocument", exTrust)]) [] = .ok [] := by decide +kernel

theorem exTrust_texts : SubsAreTexts exTrust := by
  intro p xs h
  generalize hw : Val.dict [(Key.str "Fn::Sub", Val.list xs)] = w at h
  unfold exTrust at h
  cases h with
  | here => simp at hw
  | key hm h =>
    simp only [List.mem_cons, List.not_mem_nil, or_false, Prod.mk.injEq] at hm
    rcases hm with ⟨-, rfl⟩ | ⟨-, rfl⟩
    · cases h; cases hw
    · cases h with
      | here => cases hw
      | idx hi h =>
        have := List.mem_singleton.1 (List.mem_of_getElem? hi)
        subst this
        cases h with
        | here => simp at hw
        | key hm h =>
          simp only [List.mem_cons, List.not_mem_nil, or_false, Prod.mk.injEq] at hm
          rcases hm with ⟨-, rfl⟩ | ⟨-, rfl⟩
          · cases h; cases hw
          · cases h with
            | here => simp at hw
            | key hm h =>
              simp only [List.mem_cons, List.not_mem_nil, or_false, Prod.mk.injEq] at hm
              rcases hm with ⟨-, rfl⟩
              cases h; cases hw

example : Finds (jsonSizeRule (fun _ => []) [("AssumeRolePolicyDocument", some 50)] (.dict [(.str "AssumeRolePolicyDocument", exTrust)]) []) []
    (fun x => ∃ q l prop n doc, Leaf (.dict [(.str "AssumeRolePolicyDocument", exTrust)]) q (.dict l) ∧ (prop, some n) ∈ [("AssumeRolePolicyDocument", some 50)] ∧
      (Key.str prop, doc) ∈ l ∧ doc ≠ noValue ∧ TooLong n doc ∧ x = q ++ [.str prop]) := by
  refine C106_exact_partial (by simp [exTrust, Val.WF, Val.WFDict, Val.WFList]) (by simp) (fun prop lim h => ?_)
    (fun q u h => ⟨_, ((leaf_of_notIf (by simp [IsIf])).1 h).2.1⟩) (fun _ => rfl) ?_
  · simp only [List.mem_singleton, Prod.mk.injEq] at h
    exact ⟨50, h.2, by rw [h.1]; decide⟩
  · intro q l prop lim doc hl _ hm
    have := ((leaf_of_notIf (by simp [IsIf])).1 hl).2.1
    cases this
    simp only [List.mem_singleton, Prod.mk.injEq] at hm
    rw [hm.2]
    exact exTrust_texts

example : FloatsAreNumbers (.list [.str "a", .int (-3)]) := by
  intro p r h
  cases h with
  | idx hi h =>
    have := List.mem_of_getElem? hi
    simp only [List.mem_cons, List.not_mem_nil, or_false] at this
    rcases this with rfl | rfl <;> cases h

end CfnLint
