import Verif.Lemmas.Json
/- Every text the JSON scanner accepts is in the grammar. -/
namespace CfnLint
open Spec

theorem skipWs_split (s : List Char) : ∃ w, Blank w ∧ s = w ++ skipWs s := by
  refine ⟨s.takeWhile isJsonWs, ?_, by simp [skipWs]⟩
  intro c hc
  exact (isJsonWs_iff c).1 (List.all_eq_true.1 List.all_takeWhile c hc)

theorem digits_split (s : List Char) :
    (digits s).1 ++ (digits s).2 = s ∧ ∀ c ∈ (digits s).1, '0' ≤ c ∧ c ≤ '9' :=
  ⟨by simp [digits], fun c hc => (isDigit_iff c).1 (List.all_eq_true.1 List.all_takeWhile c hc)⟩

theorem matchInteger_sound {s i r : List Char} (h : matchInteger s = some (i, r)) :
    s = i ++ r ∧ ∃ sg d, (sg = [] ∨ sg = ['-']) ∧ i = sg ++ d ∧ IntPart d := by
  unfold matchInteger at h
  have key : ∀ (sg q : List Char), (match q with
      | [] => none
      | c :: r' =>
        if c = '0' then some (sg ++ ['0'], r')
        else if c.isDigit then some (sg ++ c :: (digits r').1, (digits r').2)
        else none) = some (i, r) → sg ++ q = i ++ r ∧ ∃ d, i = sg ++ d ∧ IntPart d := by
    intro sg q h
    cases q with
    | nil => cases h
    | cons c q =>
      dsimp only at h
      split at h
      · rename_i hc
        cases h
        subst hc
        exact ⟨by simp, ['0'], rfl, ⟨by simp, by simp⟩, .inl rfl⟩
      · rename_i hc
        split at h
        · rename_i hd
          cases h
          obtain ⟨h1, h2⟩ := digits_split q
          refine ⟨by simp [h1], _, rfl, ⟨by simp, ?_⟩, .inr (by simpa using hc)⟩
          intro x hx
          rcases List.mem_cons.1 hx with rfl | hx
          · exact (isDigit_iff _).1 hd
          · exact h2 x hx
        · cases h
  cases s with
  | nil => cases h
  | cons c s =>
    by_cases hc : c = '-'
    · subst hc
      obtain ⟨h1, d, h2, h3⟩ := key ['-'] s h
      exact ⟨h1, _, d, .inr rfl, h2, h3⟩
    · have h' := key [] (c :: s) (by
        split at h
        rename_i q hq
        split at hq
        · rename_i hq'
          cases hq'
          exact absurd rfl hc
        · cases hq
          exact h)
      obtain ⟨h1, d, h2, h3⟩ := h'
      exact ⟨h1, _, d, .inl rfl, h2, h3⟩

theorem matchFrac_sound (s : List Char) :
    (matchFrac s).1 ++ (matchFrac s).2 = s ∧ FracPart (matchFrac s).1 := by
  unfold matchFrac
  split
  · rename_i r
    obtain ⟨h1, h2⟩ := digits_split r
    split
    · exact ⟨rfl, .inl rfl⟩
    · rename_i hne
      exact ⟨by simp [h1], .inr ⟨_, ⟨hne, h2⟩, rfl⟩⟩
  · exact ⟨rfl, .inl rfl⟩

theorem matchExp_sound (s : List Char) :
    (matchExp s).1 ++ (matchExp s).2 = s ∧ ExpPart (matchExp s).1 := by
  have key : ∀ e sg r', (e = 'e' ∨ e = 'E') → (sg = [] ∨ sg = ['+'] ∨ sg = ['-']) → ∀ p,
      p = (if (digits r').1 = [] then ([], e :: (sg ++ r'))
        else (e :: sg ++ (digits r').1, (digits r').2)) → p.1 ++ p.2 = e :: (sg ++ r') ∧ ExpPart p.1 := by
    intro e sg r' he hs p hp
    obtain ⟨h1, h2⟩ := digits_split r'
    split at hp
    · subst hp; exact ⟨rfl, .inl rfl⟩
    · rename_i hne
      subst hp
      exact ⟨by simp [h1], .inr ⟨e, sg, _, he, hs, ⟨hne, h2⟩, by simp⟩⟩
  unfold matchExp
  split
  · exact ⟨rfl, .inl rfl⟩
  · rename_i e r
    split
    · rename_i he
      split
      rename_i sg r' heq
      split at heq
      · cases heq; exact key e ['+'] _ he (.inr (.inl rfl)) _ rfl
      · cases heq; exact key e ['-'] _ he (.inr (.inr rfl)) _ rfl
      · cases heq; exact key e [] _ he (.inl rfl) _ rfl
    · exact ⟨rfl, .inl rfl⟩

theorem matchNumber_sound {s r : List Char} {v : JVal} (h : matchNumber s = some (v, r)) :
    ∃ s', s = s' ++ r ∧ Number s' v := by
  unfold matchNumber at h
  split at h
  · cases h
  · rename_i i r0 hi
    obtain ⟨rfl, sg, d, hsg, rfl, hd⟩ := matchInteger_sound hi
    obtain ⟨hf1, hf2⟩ := matchFrac_sound r0
    obtain ⟨he1, he2⟩ := matchExp_sound (matchFrac r0).2
    dsimp only at h
    split at h
    · rename_i hh
      cases h
      refine ⟨sg ++ d, ?_, ?_⟩
      · rw [hh.1] at hf1
        rw [hh.2] at he1
        simp only [List.nil_append] at hf1 he1
        rw [he1, hf1]
      · rcases hsg with rfl | rfl
        · rw [List.nil_append, parseInt_nat hd.1]
          exact .nat hd
        · rw [List.singleton_append, parseInt_neg]
          exact .neg hd
    · rename_i hh
      cases h
      refine ⟨sg ++ d ++ (matchFrac r0).1 ++ (matchExp (matchFrac r0).2).1, ?_, ?_⟩
      · conv_lhs => rw [← hf1, ← he1]
        simp
      · refine .flt hsg hd hf2 he2 ?_
        intro h0
        exact hh (List.append_eq_nil_iff.1 h0)

theorem dropWord_sound {w s r : List Char} (h : dropWord w s = some r) : s = w ++ r := by
  unfold dropWord at h
  split at h
  · rename_i hp
    cases h
    obtain ⟨t, rfl⟩ := List.isPrefixOf_iff_prefix.1 hp
    simp
  · cases h

theorem scanAtom_sound {s r : List Char} {v : JVal} (h : scanAtom s = .ok (v, r)) (hf : Finite v) :
    ∃ s', s = s' ++ r ∧ Gram s' (.value v) := by
  unfold scanAtom at h
  split at h
  · rename_i hw; cases h; exact ⟨_, dropWord_sound hw, .null⟩
  split at h
  · rename_i hw; cases h; exact ⟨_, dropWord_sound hw, .true⟩
  split at h
  · rename_i hw; cases h; exact ⟨_, dropWord_sound hw, .false⟩
  split at h
  · rename_i hn
    cases h
    obtain ⟨s', h1, h2⟩ := matchNumber_sound hn
    exact ⟨s', h1, .number h2⟩
  split at h
  · cases h; exact absurd (by simp) (hf _ (.here _))
  split at h
  · cases h; exact absurd (by simp) (hf _ (.here _))
  split at h
  · cases h; exact absurd (by simp) (hf _ (.here _))
  · cases h

theorem decodeU_sound {int16 : List Char → Option Int} (ho : OnlyHex int16) {a b c d : Char} {u : Int}
    (h : decodeU int16 a b c d = .ok u) : ∃ n : Nat, u = n ∧ Hex4 [a, b, c, d] n := by
  unfold decodeU at h
  split at h
  · cases h
  · split at h
    · rename_i hi
      cases h
      exact ho _ _ rfl hi
    · cases h

theorem consText_sound {u : Int} {x : JM (JText × List Char)} {t : JText} {r : List Char}
    (h : consText u x = .ok (t, r)) : ∃ t', x = .ok (t', r) ∧ t = u.toNat :: t' := by
  unfold consText at h
  split at h
  · cases h
  · split at h
    · cases h; exact ⟨_, rfl, rfl⟩
    · cases h

theorem backslash_sound {e : Char} {u : Nat} (h : backslash e = some u) : (e, u) ∈ shortEscapes := by
  unfold backslash at h
  unfold shortEscapes
  repeat (split at h; · rename_i he; cases h; subst he; simp)
  cases h

theorem scanString_sound {int16 : List Char → Option Int} (hi : ReadsHex int16) (ho : OnlyHex int16) :
    ∀ (n : Nat) (s : List Char), s.length ≤ n → ∀ t r, scanString int16 s = .ok (t, r) →
      ∃ s', s = s' ++ '"' :: r ∧ Chars s' t := by
  intro n
  induction n with
  | zero =>
    intro s hs t r h
    have : s = [] := List.length_eq_zero_iff.1 (by omega)
    subst this
    rw [scanString.eq_def] at h
    cases h
  | succ n ih =>
    intro s hs t r h
    cases s with
    | nil => rw [scanString.eq_def] at h; cases h
    | cons c s =>
      simp only [List.length_cons] at hs
      rw [scanString.eq_def] at h
      dsimp only at h
      split at h
      · rename_i hc
        cases h
        exact ⟨[], by simp [hc], .nil⟩
      · rename_i hc
        split at h
        · rename_i hb
          subst hb
          split at h
          · cases h
          · rename_i e r1
            split at h
            · rename_i he
              subst he
              split at h
              · rename_i a b c d r5
                split at h
                · cases h
                · rename_i uni hu
                  obtain ⟨m, rfl, hm⟩ := decodeU_sound ho hu
                  split at h
                  · cases h
                  · rename_i u k hp
                    obtain ⟨t', ht, rfl⟩ := consText_sound h
                    simp only [List.length_cons] at hs
                    obtain ⟨s', h1, h2⟩ := ih _ (by simp only [List.length_drop]; omega) _ _ ht
                    -- a second escape, or not
                    unfold pairStep at hp
                    split at hp
                    · rename_i hhigh
                      obtain ⟨hh1, hh2, hh3⟩ := hhigh
                      split at hp
                      · rename_i a' b' c' d' r6 hd
                        have hr5 : r5 = '\\' :: 'u' :: a' :: b' :: c' :: d' :: r6 := by
                          rw [← List.take_append_drop 2 r5, hh3, hd]; rfl
                        subst hr5
                        split at hp
                        · cases hp
                        · rename_i uni2 hu2
                          obtain ⟨m2, rfl, hm2⟩ := decodeU_sound ho hu2
                          split at hp
                          · rename_i hlow
                            cases hp
                            simp only [List.drop_succ_cons, List.drop_zero] at h1
                            subst h1
                            refine ⟨'\\' :: 'u' :: ([a, b, c, d] ++ '\\' :: 'u' :: ([a', b', c', d'] ++ s')),
                              by simp, ?_⟩
                            have := Chars.pair hm ⟨by omega, by omega⟩ hm2 ⟨by omega, by omega⟩ h2
                            have e : ((65536 : Int) + (((m : Int) - 55296) * 1024 + ((m2 : Int) - 56320))).toNat =
                                65536 + (m - 55296) * 1024 + (m2 - 56320) := by omega
                            rw [e]
                            exact this
                          · rename_i hlow
                            cases hp
                            simp only [List.drop_zero] at h1
                            refine ⟨'\\' :: 'u' :: ([a, b, c, d] ++ s'), by rw [h1]; simp, ?_⟩
                            refine Chars.unit (u := m) hm ?_ h2
                            rintro ⟨_, g, gu, gr, hg1, hg2, hg3⟩
                            subst hg1
                            obtain ⟨x1, x2, x3, x4, rfl, _, _⟩ := hex4_split hg2
                            simp only [List.cons_append, List.nil_append, List.cons.injEq, true_and] at h1
                            obtain ⟨rfl, rfl, rfl, rfl, _⟩ := h1
                            rw [decodeU_hex hi hg2] at hu2
                            cases hu2
                            exact hlow ⟨by have := hg3.1; omega, by have := hg3.2; omega⟩
                      · cases hp
                    · rename_i hhigh
                      cases hp
                      simp only [List.drop_zero] at h1
                      refine ⟨'\\' :: 'u' :: ([a, b, c, d] ++ s'), by rw [h1]; simp, ?_⟩
                      refine Chars.unit (u := m) hm ?_ h2
                      rintro ⟨hhs, g, gu, gr, hg1, hg2, hg3⟩
                      subst hg1
                      refine hhigh ⟨by have := hhs.1; omega, by have := hhs.2; omega, ?_⟩
                      rw [h1]
                      rfl
              · cases h
            · rename_i he
              split at h
              · cases h
              · rename_i u hu
                obtain ⟨t', ht, rfl⟩ := consText_sound h
                simp only [List.length_cons] at hs
                obtain ⟨s', h1, h2⟩ := ih _ (by omega) _ _ ht
                subst h1
                exact ⟨'\\' :: e :: s', by simp, .short (backslash_sound hu) h2⟩
        · rename_i hb
          split at h
          · cases h
          · rename_i hlt
            obtain ⟨t', ht, rfl⟩ := consText_sound h
            obtain ⟨s', h1, h2⟩ := ih _ (by omega) _ _ ht
            subst h1
            exact ⟨c :: s', by simp, .plain hc hb (by omega) h2⟩

theorem gram_items_blank {w s : List Char} {vs : List JVal} (hw : Blank w) (h : Gram s (.items vs)) :
    Gram (w ++ s) (.items vs) := by
  have app : ∀ {w'}, Blank w' → Blank (w ++ w') := by
    intro w' h' c hc
    rcases List.mem_append.1 hc with hc | hc
    · exact hw c hc
    · exact h' c hc
  cases h with
  | item h1 h2 h3 => rw [← List.append_assoc]; exact .item (app h1) h2 h3
  | items h1 h2 h3 h4 => rw [← List.append_assoc]; exact .items (app h1) h2 h3 h4

theorem gram_members_blank {w s : List Char} {kvs} (hw : Blank w) (h : Gram s (.members kvs)) :
    Gram (w ++ s) (.members kvs) := by
  have app : ∀ {w'}, Blank w' → Blank (w ++ w') := by
    intro w' h' c hc
    rcases List.mem_append.1 hc with hc | hc
    · exact hw c hc
    · exact h' c hc
  cases h with
  | member h1 h2 h3 h4 h5 h6 => rw [← List.append_assoc]; exact .member (app h1) h2 h3 h4 h5 h6
  | members h1 h2 h3 h4 h5 h6 h7 => rw [← List.append_assoc]; exact .members (app h1) h2 h3 h4 h5 h6 h7

/-- what the scanner accepts is in the grammar -/
def ScanSound (int16 : List Char → Option Int) (n : Nat) : Prop :=
  (∀ s v r, scanOnce int16 n s = .ok (v, r) → Finite v → ∃ s', s = s' ++ r ∧ Gram s' (.value v)) ∧
  (∀ s vs r, scanItems int16 n s = .ok (vs, r) → (∀ v ∈ vs, Finite v) →
    ∃ s', s = s' ++ ']' :: r ∧ Gram s' (.items vs)) ∧
  (∀ s kvs r, scanMembers int16 n s = .ok (kvs, r) → (∀ p ∈ kvs, Finite p.2) →
    ∃ s', '"' :: s = s' ++ '}' :: r ∧ Gram s' (.members kvs))

theorem scan_sound {int16 : List Char → Option Int} (hi : ReadsHex int16) (ho : OnlyHex int16) :
    ∀ n, ScanSound int16 n := by
  intro n
  induction n with
  | zero => refine ⟨?_, ?_, ?_⟩ <;> intro s v r h <;> simp [scanOnce, scanItems, scanMembers] at h
  | succ n ih =>
    obtain ⟨ih1, ih2, ih3⟩ := ih
    refine ⟨?_, ?_, ?_⟩
    · intro s v r h hf
      unfold scanOnce at h
      split at h
      · cases h
      · rename_i c r0
        obtain ⟨w, hw, hr0⟩ := skipWs_split r0
        split at h
        · rename_i hc
          subst hc
          split at h
          · rename_i t r' ht
            cases h
            obtain ⟨s', h1, h2⟩ := scanString_sound hi ho _ _ (Nat.le_refl _) _ _ ht
            subst h1
            exact ⟨'"' :: (s' ++ ['"']), by simp, .string h2⟩
          · cases h
        split at h
        · rename_i hc
          subst hc
          split at h
          · cases h
          · rename_i d r' heq
            rw [heq] at hr0
            split at h
            · rename_i hd
              subst hd
              obtain ⟨rfl, rfl, _, _⟩ := finishObject_ok h
              exact ⟨'{' :: (w ++ ['}']), by rw [hr0]; simp, .emptyObj hw⟩
            split at h
            · rename_i hd
              subst hd
              split at h
              · rename_i pairs r'' hm
                obtain ⟨rfl, rfl, _, _⟩ := finishObject_ok h
                obtain ⟨s', h1, h2⟩ := ih3 _ _ _ hm
                  (fun p hp t ht => hf t (.member (k := p.1) hp ht))
                exact ⟨'{' :: (w ++ s' ++ ['}']), by rw [hr0, h1]; simp, .obj (gram_members_blank hw h2)⟩
              · cases h
            · cases h
        split at h
        · rename_i hc
          subst hc
          split at h
          · cases h
          · rename_i d r' heq
            rw [heq] at hr0
            split at h
            · rename_i hd
              subst hd
              cases h
              exact ⟨'[' :: (w ++ [']']), by rw [hr0]; simp, .emptyArr hw⟩
            · split at h
              · rename_i vs r'' hm
                cases h
                obtain ⟨s', h1, h2⟩ := ih2 _ _ _ hm (fun p hp t ht => hf t (.item hp ht))
                exact ⟨'[' :: (w ++ s' ++ [']']), by rw [hr0, h1]; simp, .arr (gram_items_blank hw h2)⟩
              · cases h
        · exact scanAtom_sound h hf
    · intro s vs r h hf
      unfold scanItems at h
      split at h
      · cases h
      · cases h
      · rename_i v r0 hv
        obtain ⟨w, hw, hr0⟩ := skipWs_split r0
        split at h
        · cases h
        · rename_i d r' heq
          rw [heq] at hr0
          split at h
          · rename_i hd
            subst hd
            cases h
            obtain ⟨s', h1, h2⟩ := ih1 _ _ _ hv (hf v List.mem_cons_self)
            exact ⟨[] ++ (s' ++ w), by rw [h1, hr0]; simp, .item (by simp [Blank]) h2 hw⟩
          split at h
          · rename_i hd
            subst hd
            split at h
            · rename_i vs' r'' hm
              cases h
              obtain ⟨s', h1, h2⟩ := ih1 _ _ _ hv (hf v List.mem_cons_self)
              obtain ⟨s2, h3, h4⟩ := ih2 _ _ _ hm (fun x hx => hf x (List.mem_cons_of_mem _ hx))
              obtain ⟨w', hw', hr'⟩ := skipWs_split r'
              refine ⟨[] ++ (s' ++ (w ++ ',' :: (w' ++ s2))), ?_,
                .items (by simp [Blank]) h2 hw (gram_items_blank hw' h4)⟩
              rw [h1, hr0, hr', h3]
              simp
            · cases h
          · cases h
    · intro s kvs r h hf
      unfold scanMembers at h
      split at h
      · cases h
      · rename_i k r0 hk
        obtain ⟨ks, hk1, hk2⟩ := scanString_sound hi ho _ _ (Nat.le_refl _) _ _ hk
        subst hk1
        obtain ⟨w1, hw1, hr0⟩ := skipWs_split r0
        split at h
        · cases h
        · rename_i d r1 heq
          rw [heq] at hr0
          split at h
          · rename_i hd
            subst hd
            obtain ⟨w2, hw2, hr1⟩ := skipWs_split r1
            split at h
            · cases h
            · cases h
            · rename_i v r2 hv
              obtain ⟨w3, hw3, hr2⟩ := skipWs_split r2
              split at h
              · cases h
              · rename_i d r3 heq3
                rw [heq3] at hr2
                split at h
                · rename_i hd
                  subst hd
                  cases h
                  obtain ⟨s', h1, h2⟩ := ih1 _ _ _ hv (hf (k, v) List.mem_cons_self)
                  refine ⟨[] ++ '"' :: (ks ++ '"' :: (w1 ++ ':' :: (w2 ++ (s' ++ w3)))), ?_,
                    .member (by simp [Blank]) hk2 hw1 hw2 h2 hw3⟩
                  rw [hr0, hr1, h1, hr2]
                  simp
                split at h
                · rename_i hd
                  subst hd
                  obtain ⟨w4, hw4, hr3⟩ := skipWs_split r3
                  split at h
                  · cases h
                  · rename_i q r4 heq4
                    rw [heq4] at hr3
                    split at h
                    · rename_i hq
                      subst hq
                      split at h
                      · rename_i kvs' r5 hm
                        cases h
                        obtain ⟨s', h1, h2⟩ := ih1 _ _ _ hv (hf (k, v) List.mem_cons_self)
                        obtain ⟨s2, h3, h4⟩ := ih3 _ _ _ hm (fun x hx => hf x (List.mem_cons_of_mem _ hx))
                        refine ⟨[] ++ '"' :: (ks ++ '"' :: (w1 ++ ':' :: (w2 ++ (s' ++ (w3 ++ ',' :: (w4 ++ s2)))))),
                          ?_, .members (by simp [Blank]) hk2 hw1 hw2 h2 hw3 (gram_members_blank hw4 h4)⟩
                        rw [hr0, hr1, h1, hr2, hr3, h3]
                        simp
                      · cases h
                    · cases h
                · cases h
          · cases h

end CfnLint
