import Verif.Lemmas.JsonMarks
/- The marks of the decoder stand where the grammar with marks puts them. -/
namespace CfnLint
open Spec

theorem scanString_body {int16 : List Char → Option Int} :
    ∀ (n : Nat) (s : List Char), s.length ≤ n → ∀ t r, scanString int16 s = .ok (t, r) →
      ∃ k, s = k ++ '"' :: r ∧ Body k ∧ t.length ≤ k.length := by
  intro n
  induction n with
  | zero =>
    intro s hs t r h
    have : s = [] := List.length_eq_zero_iff.1 (by omega)
    subst this
    rw [scanString.eq_def] at h
    cases h
  | succ n ih =>
    intro s hs t r h
    cases s with
    | nil => rw [scanString.eq_def] at h; cases h
    | cons c s =>
      simp only [List.length_cons] at hs
      rw [scanString.eq_def] at h
      dsimp only at h
      split at h
      · rename_i hc
        cases h
        exact ⟨[], by simp [hc], .nil, Nat.le_refl _⟩
      · rename_i hc
        split at h
        · rename_i hb
          subst hb
          split at h
          · cases h
          · rename_i e r1
            split at h
            · rename_i he
              subst he
              split at h
              · rename_i a b c d r5
                split at h
                · cases h
                · rename_i uni hu
                  split at h
                  · cases h
                  · rename_i u k hp
                    obtain ⟨t', ht, rfl⟩ := consText_sound h
                    simp only [List.length_cons] at hs
                    obtain ⟨s', h1, h2, h3⟩ := ih _ (by simp only [List.length_drop]; omega) _ _ ht
                    have fallback : k = 0 → ∃ k, '\\' :: 'u' :: a :: b :: c :: d :: r5 = k ++ '"' :: r ∧
                        Body k ∧ (u.toNat :: t').length ≤ k.length := by
                      intro hk
                      subst hk
                      simp only [List.drop_zero] at h1
                      refine ⟨'\\' :: 'u' :: a :: b :: c :: d :: s', by rw [h1]; simp, .unit h2, ?_⟩
                      simp only [List.length_cons]
                      omega
                    unfold pairStep at hp
                    split at hp
                    · rename_i hhigh
                      obtain ⟨hh1, hh2, hh3⟩ := hhigh
                      split at hp
                      · rename_i a' b' c' d' r6 hd
                        have hr5 : r5 = '\\' :: 'u' :: a' :: b' :: c' :: d' :: r6 := by
                          rw [← List.take_append_drop 2 r5, hh3, hd]; rfl
                        split at hp
                        · cases hp
                        · split at hp
                          · rename_i hlow
                            cases hp
                            subst hr5
                            simp only [List.drop_succ_cons, List.drop_zero] at h1
                            subst h1
                            refine ⟨'\\' :: 'u' :: a :: b :: c :: d :: '\\' :: 'u' :: a' :: b' :: c' :: d' :: s',
                              by simp, .unit (.unit h2), ?_⟩
                            simp only [List.length_cons]
                            omega
                          · cases hp
                            exact fallback rfl
                      · cases hp
                    · cases hp
                      exact fallback rfl
              · cases h
            · rename_i he
              split at h
              · cases h
              · rename_i u hu
                obtain ⟨t', ht, rfl⟩ := consText_sound h
                simp only [List.length_cons] at hs
                obtain ⟨s', h1, h2, h3⟩ := ih _ (by omega) _ _ ht
                subst h1
                refine ⟨'\\' :: e :: s', by simp, .short he h2, ?_⟩
                simp only [List.length_cons]
                omega
        · rename_i hb
          split at h
          · cases h
          · rename_i hlt
            obtain ⟨t', ht, rfl⟩ := consText_sound h
            obtain ⟨s', h1, h2, h3⟩ := ih _ (by omega) _ _ ht
            subst h1
            refine ⟨c :: s', by simp, .plain hc hb (by omega) h2, ?_⟩
            simp only [List.length_cons]
            omega

theorem scanAtom_word {s r : List Char} {v : JVal} (h : scanAtom s = .ok (v, r)) :
    ∃ w, s = w ++ r ∧ Word w v := by
  unfold scanAtom at h
  split at h
  · rename_i hw; cases h; exact ⟨_, dropWord_sound hw, .inl ⟨.null, by simp, by simp, by simp⟩⟩
  split at h
  · rename_i hw; cases h; exact ⟨_, dropWord_sound hw, .inl ⟨.true, by simp, by simp, by simp⟩⟩
  split at h
  · rename_i hw; cases h; exact ⟨_, dropWord_sound hw, .inl ⟨.false, by simp, by simp, by simp⟩⟩
  split at h
  · rename_i hn
    cases h
    obtain ⟨s', h1, h2⟩ := matchNumber_sound hn
    refine ⟨s', h1, .inl ⟨.number h2, ?_⟩⟩
    cases h2 <;> simp
  split at h
  · rename_i hw; cases h; exact ⟨_, dropWord_sound hw, .inr (by simp [notJson])⟩
  split at h
  · rename_i hw; cases h; exact ⟨_, dropWord_sound hw, .inr (by simp [notJson])⟩
  split at h
  · rename_i hw; cases h; exact ⟨_, dropWord_sound hw, .inr (by simp [notJson])⟩
  · cases h

theorem blank_append {w w' : List Char} (h : Blank w) (h' : Blank w') : Blank (w ++ w') := by
  intro c hc
  rcases List.mem_append.1 hc with hc | hc
  · exact h c hc
  · exact h' c hc

theorem marks_items_blank {Str : List Char → JText → Prop} {p w s : List Char} {vs : List JMVal} (hw : Blank w)
    (h : Marks Str (p ++ w) s (.items vs)) : Marks Str p (w ++ s) (.items vs) := by
  cases h with
  | item h1 h2 h3 =>
    rw [← List.append_assoc]
    exact .item (blank_append hw h1) (by simpa using h2) h3
  | items h1 h2 h3 h4 =>
    rw [← List.append_assoc]
    exact .items (blank_append hw h1) (by simpa using h2) h3 (by simpa using h4)

theorem marks_members_blank {Str : List Char → JText → Prop} {p w s : List Char}
    {kvs : List ((JText × Span) × JMVal)} (hw : Blank w)
    (h : Marks Str (p ++ w) s (.members kvs)) : Marks Str p (w ++ s) (.members kvs) := by
  cases h with
  | @member _ w' k t w1 w2 s v w3 h1 h2 h3 h4 h5 h6 =>
    have := Marks.member (p := p) (blank_append hw h1) h2 h3 h4 (by simpa using h5) h6
    simpa using this
  | @members _ w' k t w1 w2 s v w3 r kvs h1 h2 h3 h4 h5 h6 h7 =>
    have := Marks.members (p := p) (blank_append hw h1) h2 h3 h4 (by simpa using h5) h6 (by simpa using h7)
    simpa using this

/-- the mark of a key -/
theorem keyMark_area {p k r : List Char} {t : JText} (h : t.length ≤ k.length) :
    begEndMark (p ++ '"' :: (k ++ r)) p.length (p.length + t.length) =
      area p (p ++ ('"' :: k).take t.length) := by
  have h1 : p.length + t.length = (p ++ ('"' :: k).take t.length).length := by
    simp only [List.length_append, List.length_take, List.length_cons]
    omega
  have h2 : p ++ '"' :: (k ++ r) = p ++ (('"' :: k).take t.length ++ (('"' :: k).drop t.length ++ r)) := by
    rw [← List.append_assoc (('"' :: k).take t.length), List.take_append_drop]
    rfl
  rw [h1, h2]
  exact begEndMark_area _ _ _

/-- the mark of an object or a list: `b` opens and `e` closes it -/
theorem boxMark_area {p s r : List Char} {b e : Char} :
    begEndMark (p ++ b :: (s ++ e :: r)) (posOf (p ++ b :: (s ++ e :: r)) (s ++ e :: r))
      (posOf (p ++ b :: (s ++ e :: r)) r) = area (p ++ [b]) (p ++ b :: (s ++ [e])) := by
  have h1 : p ++ b :: (s ++ e :: r) = (p ++ [b]) ++ ((s ++ [e]) ++ r) := by simp
  have h2 : p ++ b :: (s ++ [e]) = (p ++ [b]) ++ (s ++ [e]) := by simp
  have h3 : posOf (p ++ b :: (s ++ e :: r)) (s ++ e :: r) = (p ++ [b]).length := by
    rw [← posOf_append (p ++ [b]) (s ++ e :: r)]; simp
  have h4 : posOf (p ++ b :: (s ++ e :: r)) r = ((p ++ [b]) ++ (s ++ [e])).length := by
    rw [← posOf_append ((p ++ [b]) ++ (s ++ [e])) r]; simp
  rw [h3, h4, h1, h2]
  exact begEndMark_area _ _ _

/-- the position and the text of the last key -/
def LastKey (doc : List Char) (kvs : List ((JText × Span) × JMVal)) (last : List Char) (key : JText) : Prop :=
  ∃ (pre : List ((JText × Span) × JMVal)) (m : Span) (x : JMVal) (q : List Char), kvs = pre ++ [((key, m), x)] ∧
    doc = q ++ last ∧ m.sl = (row q : Int) ∧ m.sc = (column q : Int) + 1

theorem lastKey_cons {doc : List Char} {kvs : List ((JText × Span) × JMVal)} {last : List Char} {key : JText}
    (kv : (JText × Span) × JMVal) (h : LastKey doc kvs last key) : LastKey doc (kv :: kvs) last key := by
  obtain ⟨pre, m, x, q, rfl, h2⟩ := h
  exact ⟨kv :: pre, m, x, q, rfl, h2⟩

theorem finishObjectP_ok {doc start : List Char} {kvs : List ((JText × Span) × JMVal)} {last : List Char}
    {key : JText} {stop r : List Char} {v : JMVal} (h : finishObjectP doc start kvs last key stop = .ok (v, r)) :
    v = .obj (begEndMark doc (posOf doc start) (posOf doc stop)) kvs ∧ r = stop := by
  unfold finishObjectP at h
  split at h
  · cases h; exact ⟨rfl, rfl⟩
  · cases h

/-- what the decoder with marks accepts is in the grammar with marks -/
def MarkSound (Str : List Char → JText → Prop) (int16 : List Char → Option Int) (doc : List Char) (n : Nat) : Prop :=
  (∀ p s v r, doc = p ++ s → markOnce int16 doc n s = .ok (v, r) →
    ∃ s', s = s' ++ r ∧ Marks Str p s' (.value v)) ∧
  (∀ p s vs r, doc = p ++ s → markItems int16 doc n s = .ok (vs, r) →
    ∃ s', s = s' ++ ']' :: r ∧ Marks Str p s' (.items vs)) ∧
  (∀ p s kvs last key r, doc = p ++ '"' :: s → markMembers int16 doc n s = .ok (kvs, last, key, r) →
    ∃ s', '"' :: s = s' ++ '}' :: r ∧ Marks Str p s' (.members kvs) ∧ LastKey doc kvs last key ∧
      last <:+ '"' :: s ∧ last.head? = some '"')

theorem mark_sound {Str : List Char → JText → Prop} {int16 : List Char → Option Int} (doc : List Char)
    (hS : ∀ s t r, scanString int16 s = .ok (t, r) → ∃ k, s = k ++ '"' :: r ∧ Str k t)
    (hL : ∀ k t, Str k t → t.length ≤ k.length) : ∀ n, MarkSound Str int16 doc n := by
  intro n
  induction n with
  | zero =>
    refine ⟨?_, ?_, ?_⟩
    · intro p s v r _ h; cases h
    · intro p s v r _ h; cases h
    · intro p s kvs last key r _ h; cases h
  | succ n ih =>
    obtain ⟨ih1, ih2, ih3⟩ := ih
    refine ⟨?_, ?_, ?_⟩
    · intro p s v r hd h
      unfold markOnce at h
      split at h
      · cases h
      · rename_i c r0
        obtain ⟨w, hw, hr0⟩ := skipWs_split r0
        split at h
        · rename_i hc
          subst hc
          split at h
          · rename_i t r' ht
            cases h
            obtain ⟨k, h1, h2⟩ := hS _ _ _ (scanStringP_ok ht)
            subst h1
            exact ⟨'"' :: (k ++ ['"']), by simp, .string h2⟩
          · cases h
        split at h
        · rename_i hc
          subst hc
          split at h
          · cases h
          · rename_i d r' heq
            rw [heq] at hr0
            split at h
            · rename_i hd'
              subst hd'
              obtain ⟨rfl, rfl⟩ := finishObjectP_ok h
              subst hr0
              refine ⟨'{' :: (w ++ ['}']), by simp, ?_⟩
              rw [hd, boxMark_area]
              exact .emptyObj hw
            split at h
            · rename_i hd'
              subst hd'
              split at h
              · rename_i pairs last key r'' hm
                obtain ⟨rfl, rfl⟩ := finishObjectP_ok h
                obtain ⟨s', h1, h2, _⟩ := ih3 (p ++ '{' :: w) _ _ _ _ _ (by rw [hd, hr0]; simp) hm
                rw [h1] at hr0
                have hr0' : r0 = (w ++ s') ++ '}' :: r := by rw [hr0]; simp
                subst hr0'
                refine ⟨'{' :: ((w ++ s') ++ ['}']), by simp, ?_⟩
                rw [hd, boxMark_area]
                exact .obj (marks_members_blank hw (by simpa using h2))
              · cases h
            · cases h
        split at h
        · rename_i hc
          subst hc
          split at h
          · cases h
          · rename_i d r' heq
            rw [heq] at hr0
            split at h
            · rename_i hd'
              subst hd'
              cases h
              subst hr0
              refine ⟨'[' :: (w ++ [']']), by simp, ?_⟩
              rw [hd, boxMark_area]
              exact .emptyArr hw
            · split at h
              · rename_i vs r'' hm
                cases h
                obtain ⟨s', h1, h2⟩ := ih2 (p ++ '[' :: w) _ _ _ (by rw [hd, hr0]; simp) hm
                rw [h1] at hr0
                have hr0' : r0 = (w ++ s') ++ ']' :: r := by rw [hr0]; simp
                subst hr0'
                refine ⟨'[' :: ((w ++ s') ++ [']']), by simp, ?_⟩
                rw [hd, boxMark_area]
                exact .arr (marks_items_blank hw (by simpa using h2))
              · cases h
        · split at h
          · rename_i v' r' ha
            cases h
            obtain ⟨w', h1, h2⟩ := scanAtom_word ha
            exact ⟨w', h1, .word h2⟩
          · cases h
    · intro p s vs r hd h
      unfold markItems at h
      split at h
      · cases h
      · cases h
      · rename_i v r0 hv
        obtain ⟨w, hw, hr0⟩ := skipWs_split r0
        obtain ⟨s', h1, h2⟩ := ih1 p _ _ _ hd hv
        split at h
        · cases h
        · rename_i d r' heq
          rw [heq] at hr0
          split at h
          · rename_i hd'
            subst hd'
            cases h
            exact ⟨[] ++ (s' ++ w), by rw [h1, hr0]; simp, .item (by simp [Blank]) (by simpa using h2) hw⟩
          split at h
          · rename_i hd'
            subst hd'
            split at h
            · rename_i vs' r'' hm
              cases h
              obtain ⟨w', hw', hr'⟩ := skipWs_split r'
              obtain ⟨s2, h3, h4⟩ := ih2 (p ++ (s' ++ (w ++ ',' :: w'))) _ _ _ (by
                rw [hd, h1, hr0]
                conv_lhs => rw [hr']
                simp) hm
              refine ⟨[] ++ (s' ++ (w ++ ',' :: (w' ++ s2))), ?_,
                .items (by simp [Blank]) (by simpa using h2) hw (marks_items_blank hw' (by simpa using h4))⟩
              rw [h1, hr0, hr', h3]
              simp
            · cases h
          · cases h
    · intro p s kvs last key r hd h
      unfold markMembers at h
      split at h
      · cases h
      · rename_i k r0 hk
        obtain ⟨ks, hk1, hk2⟩ := hS _ _ _ (scanStringP_ok hk)
        obtain ⟨w1, hw1, hr0⟩ := skipWs_split r0
        split at h
        · cases h
        · rename_i d r1 heq1
          rw [heq1] at hr0
          split at h
          · rename_i hd'
            subst hd'
            split at h
            · cases h
            · cases h
            · rename_i v r2 hv
              obtain ⟨w2, hw2, hr1⟩ := skipWs_split r1
              obtain ⟨vs, hv1, hv2⟩ := ih1 (p ++ '"' :: (ks ++ '"' :: (w1 ++ ':' :: w2))) _ _ _ (by
                rw [hd, hk1, hr0]
                conv_lhs => rw [hr1]
                simp) hv
              rw [hv1] at hr1
              obtain ⟨w3, hw3, hr2⟩ := skipWs_split r2
              have hmark : begEndMark doc (posOf doc ('"' :: s)) (posOf doc ('"' :: s) + k.length) =
                  area p (p ++ ('"' :: ks).take k.length) := by
                have e : posOf doc ('"' :: s) = p.length := by rw [hd]; exact posOf_append _ _
                rw [e, hd, hk1]
                exact keyMark_area (hL _ _ hk2)
              have harea : area p (p ++ ('"' :: ks).take k.length) =
                  area (p ++ []) (p ++ ([] ++ ('"' :: ks).take k.length)) := by simp
              rw [hmark, harea] at h
              dsimp only at h
              split at h
              · cases h
              · rename_i d' r3 heq2
                rw [heq2] at hr2
                split at h
                · rename_i hd'
                  subst hd'
                  cases h
                  refine ⟨[] ++ '"' :: (ks ++ '"' :: (w1 ++ ':' :: (w2 ++ (vs ++ w3)))), ?_, ?_, ?_⟩
                  · rw [hk1, hr0, hr1, hr2]
                    simp
                  · exact .member (by simp [Blank]) hk2 hw1 hw2 (by simpa using hv2) hw3
                  · exact ⟨⟨[], _, _, p, rfl, hd, by simp [area], by simp [area]⟩, List.suffix_rfl, rfl⟩
                split at h
                · rename_i hd'
                  subst hd'
                  split at h
                  · cases h
                  · rename_i q r4 heq3
                    obtain ⟨w4, hw4, hr3⟩ := skipWs_split r3
                    rw [heq3] at hr3
                    split at h
                    · rename_i hq
                      subst hq
                      split at h
                      · rename_i kvs' last' key' r5 hm
                        cases h
                        obtain ⟨s2, h3, h4, h5, h6, h7⟩ := ih3
                          (p ++ ('"' :: (ks ++ '"' :: (w1 ++ ':' :: (w2 ++ (vs ++ (w3 ++ ',' :: w4)))))))
                          _ _ _ _ _ (by
                            rw [hd, hk1, hr0, hr1, hr2, hr3]
                            simp) hm
                        refine ⟨[] ++ '"' :: (ks ++ '"' :: (w1 ++ ':' :: (w2 ++ (vs ++ (w3 ++ ',' :: (w4 ++ s2)))))),
                          ?_, ?_, lastKey_cons _ h5, ?_, h7⟩
                        · rw [hk1, hr0, hr1, hr2, hr3, h3]
                          simp
                        · exact .members (by simp [Blank]) hk2 hw1 hw2 (by simpa using hv2) hw3
                            (marks_members_blank hw4 (by simpa using h4))
                        · refine h6.trans ⟨'"' :: (ks ++ '"' :: (w1 ++ ':' :: (w2 ++ (vs ++ (w3 ++ ',' :: w4))))), ?_⟩
                          rw [hk1, hr0, hr1, hr2, hr3]
                          simp
                      · cases h
                    · cases h
                · cases h
          · cases h

end CfnLint
