import Verif.Lemmas.JsonErrs
import Verif.Props.JsonSound
import Verif.Model.Decode
/-
C97: where the JSON decoder says things stand.  Forgetting the marks gives back the decoder
of C34, C35 and C55; every mark and every reported place is related to the text.
-/
namespace CfnLint
open Spec

/-- Characters between quotes, and any string that is not longer. -/
def AnyString (k : List Char) (t : JText) : Prop := Body k ∧ t.length ≤ k.length

theorem anyString_scan {int16 : List Char → Option Int} (s : List Char) (t : JText) (r : List Char)
    (h : scanString int16 s = .ok (t, r)) : ∃ k, s = k ++ '"' :: r ∧ AnyString k t :=
  scanString_body _ s (Nat.le_refl _) t r h

theorem chars_oneLine : OneLine Chars := by
  intro k t h
  induction h with
  | nil => simp
  | plain h1 h2 h3 _ ih =>
    refine ⟨?_, by simp only [List.length_cons]; omega⟩
    rw [List.mem_cons, not_or]
    refine ⟨?_, ih.1⟩
    rintro rfl
    revert h3
    decide
  | short h1 _ ih =>
    refine ⟨?_, by simp only [List.length_cons]; omega⟩
    simp only [List.mem_cons, not_or]
    refine ⟨by decide, ?_, ih.1⟩
    rintro rfl
    revert h1
    simp [shortEscapes]
  | @unit h u s t h1 _ _ ih =>
    have hl : h.length = 4 := by cases h1; rfl
    have hn : '\n' ∉ h := hex4_noNewline h1
    refine ⟨?_, by simp only [List.length_cons, List.length_append]; omega⟩
    simp only [List.mem_cons, List.mem_append, not_or]
    exact ⟨by decide, by decide, hn, ih.1⟩
  | @pair h u h' u' s t h1 _ h2 _ _ ih =>
    have hl : h.length = 4 := by cases h1; rfl
    refine ⟨?_, by simp only [List.length_cons, List.length_append]; omega⟩
    simp only [List.mem_cons, List.mem_append, not_or]
    exact ⟨by decide, by decide, hex4_noNewline h1, by decide, by decide, hex4_noNewline h2, ih.1⟩
where
  hex_noNewline {c : Char} {n : Nat} (h : HexDigit c n) : c ≠ '\n' := by
    cases h with
    | dec n h => interval_cases n <;> decide
    | upper n h => interval_cases n <;> decide
    | lower n h => interval_cases n <;> decide
  hex4_noNewline {h : List Char} {u : Nat} (hh : Hex4 h u) : '\n' ∉ h := by
    cases hh with
    | mk a b c d =>
      simp only [List.mem_cons, List.not_mem_nil, or_false, not_or]
      exact ⟨(hex_noNewline a).symm, (hex_noNewline b).symm, (hex_noNewline c).symm, (hex_noNewline d).symm⟩

/-! ### the value -/

/-- Without the marks and positions the decoder is the one of Model/Json. -/
theorem C97_erased (int16 : List Char → Option Int) (s : List Char) :
    eraseWith JMVal.erase (markLoads int16 s) = jsonLoads int16 s := by
  unfold markLoads jsonLoads
  by_cases hb : s.head? = some (Char.ofNat 0xfeff)
  · rw [if_pos hb, if_pos hb]
    rfl
  rw [if_neg hb, if_neg hb, ← (mark_erase int16 s (2 * s.length + 2)).1 (skipWs s)]
  cases markOnce int16 s (2 * s.length + 2) (skipWs s) with
  | error e => cases e <;> rfl
  | ok p =>
    obtain ⟨v, r⟩ := p
    simp only [eraseWith]
    by_cases hr : skipWs r = []
    · rw [if_pos hr, if_pos hr]
    · rw [if_neg hr, if_neg hr]
      rfl

/-! ### the marks -/

theorem marked_document {Str : List Char → JText → Prop} {int16 : List Char → Option Int} {s : List Char}
    {v : JMVal} (hS : ∀ s t r, scanString int16 s = .ok (t, r) → ∃ k, s = k ++ '"' :: r ∧ Str k t)
    (hL : ∀ k t, Str k t → t.length ≤ k.length) (h : markLoads int16 s = .ok v) : MarkedDocument Str s v := by
  unfold markLoads at h
  split at h
  · cases h
  split at h
  · cases h
  · cases h
  · rename_i v' r hv
    split at h
    · rename_i hr
      cases h
      obtain ⟨w, hw, hs⟩ := skipWs_split s
      obtain ⟨s', h1, h2⟩ := (mark_sound s hS hL _).1 w _ _ _ hs hv
      obtain ⟨w', hw', hr'⟩ := skipWs_split r
      rw [hr, List.append_nil] at hr'
      refine ⟨w, s', r, hw, ?_, h2, by rw [← h1]; exact hs⟩
      rw [hr']
      exact hw'
    · cases h

/-- The marks are those of the grammar with marks: a key is marked from its opening quote, an
object and a list from behind the bracket that opens it to behind the bracket that closes it. -/
theorem C97_marks (int16 : List Char → Option Int) (hi : ReadsHex int16) (ho : OnlyHex int16)
    (s : List Char) (v : JMVal) (h : markLoads int16 s = .ok v) : MarkedDocument Chars s v :=
  marked_document (fun s t r h => scanString_sound hi ho _ s (Nat.le_refl _) t r h)
    (fun k t h => (chars_oneLine k t h).2) h

/-- The same whatever Python's `int` makes of four characters. -/
theorem C97_marks_any (int16 : List Char → Option Int) (s : List Char) (v : JMVal)
    (h : markLoads int16 s = .ok v) : MarkedDocument AnyString s v :=
  marked_document anyString_scan (fun _ _ h => h.2) h

/-- Every document without duplicate keys and null members has its value with such marks. -/
theorem C97_decodes (int16 : List Char → Option Int) (hi : ReadsHex int16) (ho : OnlyHex int16) (s : List Char)
    (v : JVal) (hd : Document s v) (h1 : ¬ DuplicateKey v) (h2 : ¬ NullMember v) :
    ∃ mv, markLoads int16 s = .ok mv ∧ mv.erase = v ∧ MarkedDocument Chars s mv := by
  have h := C34_document_decodes int16 hi s v hd h1 h2
  rw [← C97_erased] at h
  cases hm : markLoads int16 s with
  | error e => rw [hm] at h; cases h
  | ok mv =>
    rw [hm] at h
    cases h
    exact ⟨mv, rfl, rfl, C97_marks int16 hi ho s mv hm⟩

/-! ### keys -/

/-- what a piece of the grammar says about the keys and the boxes inside -/
def nodeHas (x : JMVal) : MNode → Prop
  | .value v => Within x v
  | .items vs => ∃ v ∈ vs, Within x v
  | .members kvs => ∃ kv ∈ kvs, Within x kv.2

/-- the keys of a node itself -/
def nodeKey (t : JText) (m : Span) : MNode → Prop
  | .value v => KeyWithin v t m
  | .items vs => ∃ v ∈ vs, KeyWithin v t m
  | .members kvs => ∃ kv ∈ kvs, kv.1 = (t, m) ∨ KeyWithin kv.2 t m

/-- a key stands at `p`, in a document that starts with `a` -/
def KeyPlace (Str : List Char → JText → Prop) (doc : List Char) (t : JText) (m : Span) : Prop :=
  ∃ p k r, doc = p ++ '"' :: (k ++ '"' :: r) ∧ Str k t ∧ m = area p (p ++ ('"' :: k).take t.length)

theorem keyWithin_arr {o : Span} {vs : List JMVal} {t : JText} {m : Span} :
    KeyWithin (.arr o vs) t m ↔ ∃ v ∈ vs, KeyWithin v t m := by
  constructor
  · rintro ⟨o', kvs, x, h1, h2⟩
    cases h1 with
    | item hy hw => exact ⟨_, hy, o', kvs, x, hw, h2⟩
  · rintro ⟨v, hv, o', kvs, x, h1, h2⟩
    exact ⟨o', kvs, x, .item hv h1, h2⟩

theorem keyWithin_obj {o : Span} {kvs : List ((JText × Span) × JMVal)} {t : JText} {m : Span} :
    KeyWithin (.obj o kvs) t m ↔ ∃ kv ∈ kvs, kv.1 = (t, m) ∨ KeyWithin kv.2 t m := by
  constructor
  · rintro ⟨o', kvs', x, h1, h2⟩
    cases h1 with
    | here => exact ⟨_, h2, .inl rfl⟩
    | member hy hw => exact ⟨_, hy, .inr ⟨o', kvs', x, hw, h2⟩⟩
  · rintro ⟨⟨k, v⟩, hkv, h | ⟨o', kvs', x, h1, h2⟩⟩
    · cases h
      exact ⟨o, kvs, v, .here _, hkv⟩
    · exact ⟨o', kvs', x, .member hkv h1, h2⟩

theorem keyWithin_atom {a : JVal} {t : JText} {m : Span} : ¬ KeyWithin (.atom a) t m := by
  rintro ⟨o, kvs, x, h1, _⟩
  cases h1

theorem marks_keys {Str : List Char → JText → Prop} {p s : List Char} {nd : MNode} (h : Marks Str p s nd)
    {t : JText} {m : Span} : ∀ r, nodeKey t m nd → KeyPlace Str (p ++ (s ++ r)) t m := by
  induction h with
  | word _ => intro r h; exact absurd h keyWithin_atom
  | string _ => intro r h; exact absurd h keyWithin_atom
  | emptyArr _ => intro r h; simp [nodeKey, keyWithin_arr] at h
  | @arr p s vs _ ih =>
    intro r h
    have := ih (']' :: r) (keyWithin_arr.1 h)
    simpa using this
  | emptyObj _ => intro r h; simp [nodeKey, keyWithin_obj] at h
  | @obj p s kvs _ ih =>
    intro r h
    have := ih ('}' :: r) (keyWithin_obj.1 h)
    simpa using this
  | @item p w s w' v _ _ _ ih =>
    rintro r ⟨x, hx, h⟩
    rw [List.mem_singleton] at hx
    subst hx
    have := ih (w' ++ r) h
    simpa using this
  | @items p w s w' v r' vs _ _ _ _ ih1 ih2 =>
    rintro r ⟨x, hx, h⟩
    rcases List.mem_cons.1 hx with rfl | hx
    · have := ih1 (w' ++ ',' :: (r' ++ r)) h
      simpa using this
    · have := ih2 r ⟨x, hx, h⟩
      simpa using this
  | @member p w k t' w1 w2 s v w3 _ hk _ _ _ _ ih =>
    rintro r ⟨x, hx, h⟩
    rw [List.mem_singleton] at hx
    subst hx
    rcases h with h | h
    · cases h
      exact ⟨p ++ w, k, w1 ++ ':' :: (w2 ++ (s ++ (w3 ++ r))), by simp, hk, by simp⟩
    · have := ih (w3 ++ r) h
      simpa using this
  | @members p w k t' w1 w2 s v w3 r' kvs _ hk _ _ _ _ _ ih1 ih2 =>
    rintro r ⟨x, hx, h⟩
    rcases List.mem_cons.1 hx with rfl | hx
    · rcases h with h | h
      · cases h
        exact ⟨p ++ w, k, w1 ++ ':' :: (w2 ++ (s ++ (w3 ++ ',' :: (r' ++ r)))), by simp, hk, by simp⟩
      · have := ih1 (w3 ++ ',' :: (r' ++ r)) h
        simpa using this
    · have := ih2 r ⟨x, hx, h⟩
      simpa using this

/-- The mark of a key: it starts at the quote that opens the key, on its line (counted from 0) and
in its column counted from **1**, and ends as many characters further as the key is long. -/
theorem C97_keys (int16 : List Char → Option Int) (s : List Char) (v : JMVal) (t : JText) (m : Span)
    (h : markLoads int16 s = .ok v) (hk : KeyWithin v t m) :
    ∃ p k r, s = p ++ '"' :: (k ++ '"' :: r) ∧ Body k ∧ t.length ≤ k.length ∧
      m = area p (p ++ ('"' :: k).take t.length) := by
  obtain ⟨w, s', w', _, _, hm, rfl⟩ := C97_marks_any int16 s v h
  obtain ⟨p, k, r, h1, h2, h3⟩ := marks_keys hm w' hk
  exact ⟨p, k, r, h1, h2.1, h2.2, h3⟩

theorem row_append_noNewline (p k : List Char) (h : '\n' ∉ k) : row (p ++ k) = row p := by
  simp [row, List.count_eq_zero.2 h]

theorem column_append_noNewline (p k : List Char) (h : '\n' ∉ k) : column (p ++ k) = column p + k.length := by
  induction k using List.reverseRecOn with
  | nil => simp
  | append_singleton k c ih =>
    rw [← List.append_assoc, column_snoc, if_neg, ih]
    · simp only [List.length_append, List.length_singleton]; omega
    · intro hc; exact h (by simp [hc])
    · rintro rfl; exact h (by simp)

/-- The mark of a key stays on one line, and is as wide as the key it denotes: the quotes and the
escapes are not counted. -/
theorem C97_one_line (int16 : List Char → Option Int) (hi : ReadsHex int16) (ho : OnlyHex int16)
    (s : List Char) (v : JMVal) (t : JText) (m : Span) (h : markLoads int16 s = .ok v) (hk : KeyWithin v t m) :
    m.el = m.sl ∧ m.ec = m.sc + t.length := by
  obtain ⟨w, s', w', _, _, hm, rfl⟩ := C97_marks int16 hi ho s v h
  obtain ⟨p, k, r, h1, h2, rfl⟩ := marks_keys hm w' hk
  obtain ⟨hn, hl⟩ := chars_oneLine k t h2
  have hno : '\n' ∉ ('"' :: k).take t.length := by
    intro hmem
    have := List.mem_of_mem_take hmem
    rcases List.mem_cons.1 this with h | h
    · revert h; decide
    · exact hn h
  have hlen : (('"' :: k).take t.length).length = t.length := by
    simp only [List.length_take, List.length_cons]; omega
  refine ⟨?_, ?_⟩
  · simp [area, row_append_noNewline _ _ hno]
  · simp only [area, column_append_noNewline _ _ hno, hlen]
    push_cast
    omega

/-! ### objects and lists -/

theorem marks_boxes {Str : List Char → JText → Prop} {p s : List Char} {nd : MNode} (h : Marks Str p s nd)
    {x : JMVal} : ∀ r, nodeHas x nd →
      (∀ m kvs, x = .obj m kvs → ∃ q y z, p ++ (s ++ r) = q ++ '{' :: (y ++ '}' :: z) ∧
        m = area (q ++ ['{']) (q ++ '{' :: (y ++ ['}']))) ∧
      (∀ m vs, x = .arr m vs → ∃ q y z, p ++ (s ++ r) = q ++ '[' :: (y ++ ']' :: z) ∧
        m = area (q ++ ['[']) (q ++ '[' :: (y ++ [']']))) := by
  induction h with
  | word _ =>
    intro r h
    cases h
    exact ⟨fun _ _ h => (by cases h), fun _ _ h => (by cases h)⟩
  | string _ =>
    intro r h
    cases h
    exact ⟨fun _ _ h => (by cases h), fun _ _ h => (by cases h)⟩
  | @emptyArr p w _ =>
    intro r h
    cases h with
    | here =>
      refine ⟨fun _ _ h => (by cases h), fun _ _ h => ?_⟩
      cases h
      exact ⟨p, w, r, by simp, rfl⟩
    | item h => cases h
  | @arr p s vs _ ih =>
    intro r h
    cases h with
    | here =>
      refine ⟨fun _ _ h => (by cases h), fun _ _ h => ?_⟩
      cases h
      exact ⟨p, s, r, by simp, rfl⟩
    | item hy hw =>
      have := ih (']' :: r) ⟨_, hy, hw⟩
      simpa using this
  | @emptyObj p w _ =>
    intro r h
    cases h with
    | here =>
      refine ⟨fun _ _ h => ?_, fun _ _ h => (by cases h)⟩
      cases h
      exact ⟨p, w, r, by simp, rfl⟩
    | member h => cases h
  | @obj p s kvs _ ih =>
    intro r h
    cases h with
    | here =>
      refine ⟨fun _ _ h => ?_, fun _ _ h => (by cases h)⟩
      cases h
      exact ⟨p, s, r, by simp, rfl⟩
    | member hy hw =>
      have := ih ('}' :: r) ⟨_, hy, hw⟩
      simpa using this
  | @item p w s w' v _ _ _ ih =>
    rintro r ⟨y, hy, h⟩
    rw [List.mem_singleton] at hy
    subst hy
    have := ih (w' ++ r) h
    simpa using this
  | @items p w s w' v r' vs _ _ _ _ ih1 ih2 =>
    rintro r ⟨y, hy, h⟩
    rcases List.mem_cons.1 hy with rfl | hy
    · have := ih1 (w' ++ ',' :: (r' ++ r)) h
      simpa using this
    · have := ih2 r ⟨y, hy, h⟩
      simpa using this
  | @member p w k t' w1 w2 s v w3 _ hk _ _ _ _ ih =>
    rintro r ⟨y, hy, h⟩
    rw [List.mem_singleton] at hy
    subst hy
    have := ih (w3 ++ r) h
    simpa using this
  | @members p w k t' w1 w2 s v w3 r' kvs _ hk _ _ _ _ _ ih1 ih2 =>
    rintro r ⟨y, hy, h⟩
    rcases List.mem_cons.1 hy with rfl | hy
    · have := ih1 (w3 ++ ',' :: (r' ++ r)) h
      simpa using this
    · have := ih2 r ⟨y, hy, h⟩
      simpa using this

/-- The mark of an object starts behind its opening brace, on the line of the brace, and ends behind its
closing brace. -/
theorem C97_objects (int16 : List Char → Option Int) (s : List Char) (v : JMVal) (m : Span)
    (kvs : List ((JText × Span) × JMVal)) (h : markLoads int16 s = .ok v) (hw : Within (.obj m kvs) v) :
    ∃ p y r, s = p ++ '{' :: (y ++ '}' :: r) ∧ m = area (p ++ ['{']) (p ++ '{' :: (y ++ ['}'])) := by
  obtain ⟨w, s', w', _, _, hm, rfl⟩ := C97_marks_any int16 s v h
  exact (marks_boxes hm w' hw).1 _ _ rfl

/-- The same for a list. -/
theorem C97_lists (int16 : List Char → Option Int) (s : List Char) (v : JMVal) (m : Span) (vs : List JMVal)
    (h : markLoads int16 s = .ok v) (hw : Within (.arr m vs) v) :
    ∃ p y r, s = p ++ '[' :: (y ++ ']' :: r) ∧ m = area (p ++ ['[']) (p ++ '[' :: (y ++ [']'])) := by
  obtain ⟨w, s', w', _, _, hm, rfl⟩ := C97_marks_any int16 s v h
  exact (marks_boxes hm w' hw).2 _ _ rfl

/-! ### the template -/

/-- atoms hold neither objects nor lists -/
def Plain (v : JMVal) : Prop := ∀ a, Within (.atom a) v → (∀ vs, a ≠ .arr vs) ∧ ∀ kvs, a ≠ .obj kvs

theorem word_plain {s : List Char} {v : JVal} (h : Word s v) : (∀ vs, v ≠ .arr vs) ∧ ∀ kvs, v ≠ .obj kvs := by
  rcases h with h | h
  · exact ⟨h.2.1, h.2.2.1⟩
  · simp only [notJson, List.mem_cons, List.not_mem_nil, or_false, Prod.mk.injEq] at h
    rcases h with ⟨_, rfl⟩ | ⟨_, rfl⟩ | ⟨_, rfl⟩ <;> exact ⟨by simp, by simp⟩

theorem marks_plain {Str : List Char → JText → Prop} {p s : List Char} {nd : MNode} (h : Marks Str p s nd)
    {a : JVal} : nodeHas (.atom a) nd → (∀ vs, a ≠ .arr vs) ∧ ∀ kvs, a ≠ .obj kvs := by
  induction h with
  | word hw => intro h; cases h; exact word_plain hw
  | string _ => intro h; cases h; exact ⟨by simp, by simp⟩
  | emptyArr _ => intro h; cases h with | item h => cases h
  | arr _ ih => intro h; cases h with | item hy hw => exact ih ⟨_, hy, hw⟩
  | emptyObj _ => intro h; cases h with | member h => cases h
  | obj _ ih => intro h; cases h with | member hy hw => exact ih ⟨_, hy, hw⟩
  | item _ _ _ ih =>
    rintro ⟨y, hy, h⟩
    rw [List.mem_singleton] at hy
    exact ih (hy ▸ h)
  | items _ _ _ _ ih1 ih2 =>
    rintro ⟨y, hy, h⟩
    rcases List.mem_cons.1 hy with rfl | hy
    · exact ih1 h
    · exact ih2 ⟨y, hy, h⟩
  | member _ _ _ _ _ _ ih =>
    rintro ⟨y, hy, h⟩
    rw [List.mem_singleton] at hy
    subst hy
    exact ih h
  | members _ _ _ _ _ _ _ ih1 ih2 =>
    rintro ⟨y, hy, h⟩
    rcases List.mem_cons.1 hy with rfl | hy
    · exact ih1 h
    · exact ih2 ⟨y, hy, h⟩

mutual
theorem toMVal_erase (textOf : JText → String) : ∀ v : JMVal, Plain v →
    (v.toMVal textOf).erase = v.erase.toVal textOf
  | .atom a, h => by
    have := h a (.here _)
    cases a with
    | arr vs => exact absurd rfl (this.1 vs)
    | obj kvs => exact absurd rfl (this.2 kvs)
    | _ => simp [JMVal.toMVal, MVal.erase, JMVal.erase, JVal.toVal]
  | .arr m vs, h => by
    simp only [JMVal.toMVal, MVal.erase, JMVal.erase, JVal.toVal]
    rw [toMVals_erase textOf vs (fun v hv a ha => h a (.item hv ha))]
  | .obj m kvs, h => by
    simp only [JMVal.toMVal, MVal.erase, JMVal.erase, JVal.toVal]
    rw [toMPairs_erase textOf kvs (fun kv hkv a ha => h a (.member (k := kv.1) hkv ha))]
theorem toMVals_erase (textOf : JText → String) : ∀ vs : List JMVal, (∀ v ∈ vs, Plain v) →
    MVal.eraseList (JMVal.toMVals textOf vs) = JVal.toVals textOf (JMVal.eraseList vs)
  | [], _ => rfl
  | v :: vs, h => by
    simp only [JMVal.toMVals, MVal.eraseList, JMVal.eraseList, JVal.toVals]
    rw [toMVal_erase textOf v (h v List.mem_cons_self),
      toMVals_erase textOf vs (fun x hx => h x (List.mem_cons_of_mem _ hx))]
theorem toMPairs_erase (textOf : JText → String) : ∀ kvs : List ((JText × Span) × JMVal), (∀ kv ∈ kvs, Plain kv.2) →
    MVal.eraseDict (JMVal.toMPairs textOf kvs) = JVal.toPairs textOf (JMVal.erasePairs kvs)
  | [], _ => rfl
  | ((k, m), v) :: kvs, h => by
    simp only [JMVal.toMPairs, MVal.eraseDict, JMVal.erasePairs, JVal.toPairs]
    rw [toMVal_erase textOf v (h _ List.mem_cons_self),
      toMPairs_erase textOf kvs (fun x hx => h x (List.mem_cons_of_mem _ hx))]
end

/-- The marked template a JSON document gives is, without its marks, the template of `decodeFile`. -/
theorem C97_template (int16 : List Char → Option Int) (textOf : JText → String) (s : List Char) (v : JMVal)
    (h : markLoads int16 s = .ok v) :
    ∃ j, jsonLoads int16 s = .ok j ∧ (v.toMVal textOf).erase = j.toVal textOf := by
  refine ⟨v.erase, by rw [← C97_erased, h]; rfl, toMVal_erase textOf v ?_⟩
  obtain ⟨w, s', w', _, _, hm, rfl⟩ := C97_marks_any int16 s v h
  exact fun a ha => marks_plain hm ha

theorem toMVals_eq (textOf : JText → String) : ∀ vs : List JMVal,
    JMVal.toMVals textOf vs = vs.map (JMVal.toMVal textOf)
  | [] => by simp [JMVal.toMVals]
  | v :: vs => by simp [JMVal.toMVals, toMVals_eq textOf vs]

theorem toMPairs_eq (textOf : JText → String) : ∀ kvs : List ((JText × Span) × JMVal),
    JMVal.toMPairs textOf kvs =
      kvs.map fun kv => ((⟨.str (textOf kv.1.1), some kv.1.2⟩ : MKey), JMVal.toMVal textOf kv.2)
  | [] => by simp [JMVal.toMPairs]
  | ((k, m), v) :: kvs => by simp [JMVal.toMPairs, toMPairs_eq textOf kvs]

theorem toMVal_within (textOf : JText → String) {x v : JMVal} (h : Within x v) :
    MWithin (x.toMVal textOf) (v.toMVal textOf) := by
  induction h with
  | here => exact .here _
  | item hy _ ih =>
    rw [JMVal.toMVal, toMVals_eq]
    exact .item (List.mem_map_of_mem hy) ih
  | member hy _ ih =>
    rw [JMVal.toMVal, toMPairs_eq]
    exact .member (List.mem_map.2 ⟨_, hy, rfl⟩) ih

/-- C97: the template has a node for every list and object of the document, with its mark, and the keys of
the objects keep theirs. -/
theorem C97_nodes (textOf : JText → String) (v : JMVal) :
    (∀ m vs, Within (.arr m vs) v → ∃ ns, MWithin (.list m ns) (v.toMVal textOf) ∧ ns.length = vs.length) ∧
    (∀ m kvs, Within (.obj m kvs) v → ∃ ns, MWithin (.dict m ns) (v.toMVal textOf) ∧
      ns.map Prod.fst = kvs.map fun kv => (⟨.str (textOf kv.1.1), some kv.1.2⟩ : MKey)) := by
  constructor
  · intro m vs h
    have := toMVal_within textOf h
    rw [JMVal.toMVal] at this
    exact ⟨_, this, by rw [toMVals_eq, List.length_map]⟩
  · intro m kvs h
    have := toMVal_within textOf h
    rw [JMVal.toMVal] at this
    exact ⟨_, this, by rw [toMPairs_eq, List.map_map]; rfl⟩

/-! ### errors -/

theorem loads_placed {Str : List Char → JText → Prop} {int16 : List Char → Option Int} {s : List Char} {e : JPErr}
    (hS : ∀ s t r, scanString int16 s = .ok (t, r) → ∃ k, s = k ++ '"' :: r ∧ Str k t)
    (hL : ∀ k t, Str k t → t.length ≤ k.length) (h : markLoads int16 s = .error e) : Placed Str s s e := by
  unfold markLoads at h
  split at h
  · cases h
    exact placed_std List.suffix_rfl (by simp [Shows])
  have hw := skipWs_suffix s
  split at h
  · rename_i r he
    cases h
    obtain ⟨h1, _, _, _, h5⟩ := (mark_errs s hS hL _).1 _ _ hw he
    obtain ⟨rfl, h6⟩ := h5 _ rfl
    refine placed_std hw ?_
    have : GoesOn (skipWs s) ['"', '{', '['] := fun c hc => ⟨skipWs_fresh s c hc, h6 c hc⟩
    simp [Shows, this]
  · rename_i e' hne he
    cases h
    exact placed_mono ((mark_errs s hS hL _).1 _ _ hw he) hw (fun r h => hne r (by rw [h]))
  · rename_i v r hv
    split at h
    · cases h
    · rename_i hr
      cases h
      obtain ⟨w, _, hs⟩ := skipWs_split s
      obtain ⟨s', h1, _⟩ := (mark_sound s hS hL _).1 w _ _ _ hs hv
      refine placed_std ((skipWs_suffix r).trans (List.IsSuffix.trans ⟨s', h1.symm⟩ hw)) ?_
      have : GoesOn (skipWs r) [] := fun c hc => ⟨skipWs_fresh r c hc, by simp⟩
      simp [Shows, this, hr]

/-- An error stands at a place of the document: line and column are counted from 1. -/
theorem C97_error_place (int16 : List Char → Option Int) (s : List Char) (e : JPErr) (rest : List Char)
    (h : markLoads int16 s = .error e) (hr : e.rest? = some rest) :
    ∃ p, s = p ++ rest ∧ errorAt s rest = ((row p : Int) + 1, (column p : Int) + 1) := by
  obtain ⟨p, hp⟩ := (loads_placed anyString_scan (fun _ _ h => h.2) h).1 rest hr
  exact ⟨p, hp.symm, by rw [← hp]; exact errorAt_append p rest⟩

/-- What stands at the place of an error is what its message says. -/
theorem C97_error_shows (int16 : List Char → Option Int) (s : List Char) (msg : String) (rest : List Char)
    (h : markLoads int16 s = .error (.std msg rest) ∨ ∃ a key, markLoads int16 s = .error (.cfn msg a rest key)) :
    Shows s msg rest := by
  rcases h with h | ⟨a, key, h⟩
  · exact (loads_placed anyString_scan (fun _ _ h => h.2) h).2.2.1 _ _ rfl
  · exact ((loads_placed anyString_scan (fun _ _ h => h.2) h).2.2.2.1 _ _ _ _ rfl).1

/-- The finding for an error of the module itself starts one column to the right of the error and is as
wide as a key; the finding for an error of the standard library starts at the error. -/
theorem C97_reported (int16 : List Char → Option Int) (s rest : List Char) (key : JText) (msg m filename : String)
    (a : Option JText) :
    (markLoads int16 s = .error (.cfn m a rest key) → ∃ p, s = p ++ rest ∧
      cfnJsonMatch (jsonPosOf int16 s) msg filename = ⟨row p + 1, column p + 2, row p + 1,
        column p + 2 + key.length, filename, parseErrorRule, msg⟩) ∧
    (markLoads int16 s = .error (.std m rest) → ∃ p, s = p ++ rest ∧
      jsonMatch (jsonPosOf int16 s) msg filename = ⟨row p + 1, column p + 1, row p + 1,
        column p + 2, filename, parseErrorRule, msg⟩) := by
  constructor
  · intro h
    obtain ⟨p, h1, h2⟩ := C97_error_place int16 s _ rest h rfl
    refine ⟨p, h1, ?_⟩
    simp only [cfnJsonMatch, jsonPosOf, h, h2]
    simp only [Match.mk.injEq, and_true, true_and]
    omega
  · intro h
    obtain ⟨p, h1, h2⟩ := C97_error_place int16 s _ rest h rfl
    refine ⟨p, h1, ?_⟩
    simp only [jsonMatch, jsonPosOf, h, h2]
    simp only [Match.mk.injEq, and_true, true_and]
    omega

/-- The key of an error that is about no key is a single blank, so its finding is one column wide. -/
theorem C97_error_width (int16 : List Char → Option Int) (s rest : List Char) (msg : String) (key : JText)
    (h : markLoads int16 s = .error (.cfn msg none rest key)) : key = [0x20] :=
  ((loads_placed anyString_scan (fun _ _ h => h.2) h).2.2.2.1 _ _ _ _ rfl).2 rfl

/-- An error about a duplicate key or a null: the object that has it stands in the document, the message
names the first member it may not have, and the place is that of the **last** member's key. -/
theorem C97_repeat_partial (int16 : List Char → Option Int) (hi : ReadsHex int16) (ho : OnlyHex int16)
    (s rest : List Char) (msg : String) (k key : JText)
    (h : markLoads int16 s = .error (.cfn msg (some k) rest key)) :
    ∃ m last, BadObject Chars s k m msg key last ∧ errorAt s rest = (last.sl + 1, last.sc) := by
  obtain ⟨m, last, q, h1, h2, h3, h4⟩ := (loads_placed
    (fun s t r h => scanString_sound hi ho _ s (Nat.le_refl _) t r h)
    (fun k t h => (chars_oneLine k t h).2) h).2.1 _ _ _ _ rfl
  refine ⟨m, last, h1, ?_⟩
  rw [h2, errorAt_append, h3, h4]

/-- The place one would want: that of the member the message names. -/
def C97_repeat_statement : Prop :=
  ∀ (int16 : List Char → Option Int), ReadsHex int16 → OnlyHex int16 →
    ∀ (s rest : List Char) (msg : String) (k key : JText),
      markLoads int16 s = .error (.cfn msg (some k) rest key) →
      ∃ m last, BadObject Chars s k m msg key last ∧ errorAt s rest = (m.sl + 1, m.sc)

/-- The columns one would want: counted from 0, as the marks of a YAML document are, since every
finding adds one to the column of a mark. -/
def C97_statement : Prop :=
  ∀ (int16 : List Char → Option Int) (s : List Char) (v : JMVal) (t : JText) (m : Span),
    markLoads int16 s = .ok v → KeyWithin v t m →
    ∃ p k r, s = p ++ '"' :: (k ++ '"' :: r) ∧ AnyString k t ∧ m.sl = row p ∧ m.sc = column p

/-! ### Examples -/

theorem scanStringP_quote (int16 : List Char → Option Int) (start r : List Char) :
    scanStringP int16 start ('"' :: r) = .ok ([], r) := by
  rw [scanStringP.eq_def]
  rfl

theorem scanStringP_plain (int16 : List Char → Option Int) (start r : List Char) (c : Char)
    (h1 : c ≠ '"') (h2 : c ≠ '\\') (h3 : ¬ c.toNat < 0x20) :
    scanStringP int16 start (c :: r) = consTextP c.toNat (scanStringP int16 start r) := by
  rw [scanStringP.eq_def]
  simp [h1, h2, h3]

theorem scanStringP_one (int16 : List Char → Option Int) (start r : List Char) (c : Char)
    (h1 : c ≠ '"') (h2 : c ≠ '\\') (h3 : ¬ c.toNat < 0x20) :
    scanStringP int16 start (c :: '"' :: r) = .ok ([c.toNat], r) := by
  rw [scanStringP_plain _ _ _ _ h1 h2 h3, scanStringP_quote]
  rfl

theorem exOneKey (int16 : List Char → Option Int) : markLoads int16 "{\"a\":1}".toList =
    .ok (.obj ⟨0, 2, 0, 8⟩ [(([97], ⟨0, 2, 0, 3⟩), .atom (.int 1))]) := by
  have h := scanStringP_one int16 ('"' :: "a\":1}".toList) ":1}".toList 'a' (by decide) (by decide) (by decide)
  simp at h
  simp [markLoads, skipWs, isJsonWs, markOnce, markMembers, h, finishObjectP, checkDuplicatesP, JMVal.isNull,
    scanAtom, dropWord, matchNumber, matchInteger, matchFrac, matchExp, digits, parseInt, begEndMark, posOf,
    lineAt, columnAt, rfindNl, rfindLoop]

/-- The columns of keys are off by one. -/
theorem C97_violated : ¬ C97_statement := by
  intro h
  obtain ⟨p, k, r, h1, _, h2, h3⟩ := h (fun _ => none) _ _ [97] ⟨0, 2, 0, 3⟩ (exOneKey _)
    ⟨_, _, _, .here _, List.mem_cons_self⟩
  have hrow : row p = 0 := by simpa using h2.symm
  have hnl : '\n' ∉ p := List.count_eq_zero.1 hrow
  have hcol := column_append_noNewline [] p hnl
  have hlen : p.length = 2 := by
    have h3' : column p = 2 := by
      have : ((2 : Nat) : Int) = column p := h3
      omega
    simp only [List.nil_append] at hcol
    have h0 : column [] = 0 := rfl
    omega
  match p, hlen with
  | [x, y], _ => simp at h1

theorem exTwice : markLoads strictInt16 "{\"a\":1,\"a\":2,\"b\":3}".toList =
    .error (.cfn "Duplicate found" (some [97]) "\"b\":3}".toList [98]) := by
  have ha1 := scanStringP_one strictInt16 "\"a\":1,\"a\":2,\"b\":3}".toList ":1,\"a\":2,\"b\":3}".toList 'a'
    (by decide) (by decide) (by decide)
  have ha2 := scanStringP_one strictInt16 "\"a\":2,\"b\":3}".toList ":2,\"b\":3}".toList 'a'
    (by decide) (by decide) (by decide)
  have hb := scanStringP_one strictInt16 "\"b\":3}".toList ":3}".toList 'b'
    (by decide) (by decide) (by decide)
  simp at ha1 ha2 hb
  simp [markLoads, skipWs, isJsonWs, markOnce, markMembers, ha1, ha2, hb, finishObjectP, checkDuplicatesP,
    JMVal.isNull, scanAtom, dropWord, matchNumber, matchInteger, matchFrac, matchExp, digits, parseInt]

/-- The error of `{"a":1,"a":2,"b":3}` is about `a` and stands at `b`. -/
theorem C97_repeat_violated : ¬ C97_repeat_statement := by
  intro h
  obtain ⟨m, last, ⟨p, s, r, kvs, h1, h2, ⟨before, v, after, h3, _, _⟩, _⟩, h4⟩ :=
    h strictInt16 readsHex_strict onlyHex_strict _ _ _ _ _ exTwice
  have hk : nodeKey [97] m (.members kvs) := ⟨((([97] : JText), m), v), by rw [h3]; simp, .inl rfl⟩
  obtain ⟨q, k, r', h5, h6, h7⟩ := marks_keys h2 ('}' :: r) hk
  have h5' : "{\"a\":1,\"a\":2,\"b\":3}".toList = q ++ '"' :: (k ++ '"' :: r') := by
    rw [h1, ← h5]; simp
  have he : errorAt "{\"a\":1,\"a\":2,\"b\":3}".toList "\"b\":3}".toList = (1, 14) := by decide +kernel
  rw [he, h7] at h4
  simp only [area, Prod.mk.injEq] at h4
  have hrow : row q = 0 := by omega
  have hnl : '\n' ∉ q := List.count_eq_zero.1 hrow
  have hcol := column_append_noNewline [] q hnl
  simp only [List.nil_append] at hcol
  have h0 : column [] = 0 := rfl
  have hlen : q.length = 13 := by omega
  have hdrop := congrArg (List.drop 13) h5'
  rw [← hlen, List.drop_left, hlen] at hdrop
  simp at hdrop
  obtain ⟨hk1, hk2⟩ : ∃ k', k = 'b' :: k' ∧ True := by
    cases k with
    | nil => simp at hdrop
    | cons c k' =>
      simp at hdrop
      exact ⟨k', by rw [hdrop.1], trivial⟩
  obtain ⟨rfl, _⟩ := hk2
  cases h6

-- the hypotheses of the theorems are met
example (int16 : List Char → Option Int) : ∃ v, markLoads int16 "{\"a\":1}".toList = .ok v ∧ KeyWithin v [97] ⟨0, 2, 0, 3⟩ :=
  ⟨_, exOneKey int16, _, _, _, .here _, List.mem_cons_self⟩

example : ∃ m last, BadObject Chars "{\"a\":1,\"a\":2,\"b\":3}".toList [97] m "Duplicate found" [98] last :=
  let ⟨m, last, h, _⟩ := C97_repeat_partial _ readsHex_strict onlyHex_strict _ _ _ _ _ exTwice
  ⟨m, last, h⟩

end CfnLint
