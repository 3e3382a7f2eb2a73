import Verif.Lemmas.JsonPlaces
/- Where the decoder says an error is. -/
namespace CfnLint
open Spec

/-- The position of an error, if it has one. -/
def JPErr.rest? : JPErr → Option (List Char)
  | .stop r => some r
  | .cfn _ _ r _ => some r
  | .std _ r => some r
  | _ => none

/-- The key an error is about. -/
def JPErr.about? : JPErr → Option JText
  | .cfn _ a _ _ => a
  | _ => none

theorem isNull_iff (v : JMVal) : v.isNull = true ↔ v = .atom .null := by
  cases v with
  | atom v => cases v <;> simp [JMVal.isNull]
  | arr m vs => simp [JMVal.isNull]
  | obj m kvs => simp [JMVal.isNull]

theorem checkDuplicatesP_none : ∀ (kvs : List ((JText × Span) × JMVal)) (seen : List JText),
    checkDuplicatesP kvs seen = none ↔ (∀ kv ∈ kvs, kv.2 ≠ .atom .null ∧ kv.1.1 ∉ seen) ∧
      (kvs.map (fun kv => kv.1.1)).Nodup
  | [], _ => by simp [checkDuplicatesP]
  | ((k, m), v) :: kvs, seen => by
    unfold checkDuplicatesP
    have hn := isNull_iff v
    by_cases hv : v.isNull = true
    · have := hn.1 hv
      subst this
      simp [JMVal.isNull]
    · have hv' : v ≠ .atom .null := fun h => hv (hn.2 h)
      by_cases hk : k ∈ seen
      · simp [hv, hk]
      · rw [if_neg hv, if_neg hk, checkDuplicatesP_none kvs (k :: seen)]
        simp only [List.mem_cons, List.map_cons, List.nodup_cons, List.mem_map, not_exists, not_and,
          forall_eq_or_imp, not_or]
        constructor
        · rintro ⟨h1, h2⟩
          exact ⟨⟨⟨hv', hk⟩, fun kv h => ⟨(h1 kv h).1, (h1 kv h).2.2⟩⟩, fun kv h => (h1 kv h).2.1, h2⟩
        · rintro ⟨⟨_, h1⟩, h2, h3⟩
          exact ⟨fun kv h => ⟨(h1 kv h).1, h2 kv h, (h1 kv h).2⟩, h3⟩

theorem checkDuplicatesP_some : ∀ (kvs : List ((JText × Span) × JMVal)) (seen : List JText) (msg : String)
    (k : JText), checkDuplicatesP kvs seen = some (msg, k) →
    ∃ before m v after, kvs = before ++ ((k, m), v) :: after ∧ checkDuplicatesP before seen = none ∧
      ((v = .atom .null ∧ msg = "Null Error") ∨
        (v ≠ .atom .null ∧ (k ∈ seen ∨ k ∈ before.map (fun kv => kv.1.1)) ∧ msg = "Duplicate found"))
  | [], _, _, _, h => by simp [checkDuplicatesP] at h
  | ((k', m), v) :: kvs, seen, msg, k, h => by
    unfold checkDuplicatesP at h
    have hn := isNull_iff v
    by_cases hv : v.isNull = true
    · rw [if_pos hv] at h
      cases h
      exact ⟨[], m, v, kvs, rfl, rfl, .inl ⟨hn.1 hv, rfl⟩⟩
    · rw [if_neg hv] at h
      have hv' : v ≠ .atom .null := fun h => hv (hn.2 h)
      by_cases hk : k' ∈ seen
      · rw [if_pos hk] at h
        cases h
        exact ⟨[], m, v, kvs, rfl, rfl, .inr ⟨hv', .inl hk, rfl⟩⟩
      · rw [if_neg hk] at h
        obtain ⟨before, m2, v2, after, rfl, h2, h3⟩ := checkDuplicatesP_some kvs (k' :: seen) msg k h
        refine ⟨((k', m), v) :: before, m2, v2, after, rfl, ?_, ?_⟩
        · unfold checkDuplicatesP
          rw [if_neg hv, if_neg hk]
          exact h2
        · rcases h3 with h3 | ⟨h3, h4, h5⟩
          · exact .inl h3
          · refine .inr ⟨h3, ?_, h5⟩
            rcases h4 with h4 | h4
            · rcases List.mem_cons.1 h4 with rfl | h4
              · exact .inr (by simp)
              · exact .inl h4
            · exact .inr (by simp only [List.map_cons]; exact List.mem_cons_of_mem _ h4)

theorem offends_of {kvs : List ((JText × Span) × JMVal)} {msg : String} {k : JText}
    (h : checkDuplicatesP kvs [] = some (msg, k)) : ∃ m, Offends kvs k m msg := by
  obtain ⟨before, m, v, after, h1, h2, h3⟩ := checkDuplicatesP_some _ _ _ _ h
  obtain ⟨h4, h5⟩ := (checkDuplicatesP_none _ _).1 h2
  refine ⟨m, before, v, after, h1, ⟨h5, fun kv hkv => (h4 kv hkv).1⟩, ?_⟩
  rcases h3 with h3 | ⟨h3, h6, h7⟩
  · exact .inl h3
  · exact .inr ⟨h3, by simpa using h6, h7⟩

/-! ### errors of strings -/

theorem decodeUP_err {int16 : List Char → Option Int} {rest : List Char} {a b c d : Char} {e : JPErr}
    (h : decodeUP int16 rest a b c d = .error e) : e = cfnErr "Invalid \\uXXXX escape" rest := by
  unfold decodeUP at h
  split at h
  · cases h; rfl
  · split at h
    · cases h
    · cases h; rfl

theorem pairStepP_err {int16 : List Char → Option Int} {u : Int} {r : List Char} {e : JPErr}
    (h : pairStepP int16 u r = .error e) :
    e = cfnErr "Invalid \\uXXXX escape" (r.drop 1) ∧ ∃ r', r = '\\' :: 'u' :: r' := by
  unfold pairStepP at h
  split at h
  · rename_i hh
    have hr : ∃ r', r = '\\' :: 'u' :: r' :=
      ⟨r.drop 2, by conv_lhs => rw [← List.take_append_drop 2 r, hh.2.2]
                    rfl⟩
    split at h
    · split at h
      · rename_i h'
        cases h
        exact ⟨decodeUP_err h', hr⟩
      · split at h <;> cases h
    · cases h; exact ⟨rfl, hr⟩
  · cases h

theorem consTextP_err {u : Int} {x : JPM (JText × List Char)} {e : JPErr} (h : consTextP u x = .error e) :
    e = .value ∨ x = .error e := by
  unfold consTextP at h
  split at h
  · cases h; exact .inl rfl
  · split at h
    · cases h
    · exact .inr h

theorem backslash_none {e : Char} (h : backslash e = none) : ∀ u, (e, u) ∉ shortEscapes := by
  intro u hu
  have := backslash_short hu
  rw [h] at this
  simp at this

theorem scanStringP_err {int16 : List Char → Option Int} {start : List Char} (hq : start.head? = some '"') :
    ∀ (n : Nat) (s : List Char), s.length ≤ n → s <:+ start → ∀ e, scanStringP int16 start s = .error e →
      e = .value ∨ ∃ msg rest, e = cfnErr msg rest ∧ rest <:+ start ∧
        ∀ doc, start <:+ doc → Shows doc msg rest := by
  intro n
  induction n with
  | zero =>
    intro s hs hsuf e h
    have : s = [] := List.length_eq_zero_iff.1 (by omega)
    subst this
    rw [scanStringP.eq_def] at h
    cases h
    exact .inr ⟨_, _, rfl, List.suffix_rfl, fun doc _ => by simp [Shows, hq]⟩
  | succ n ih =>
    intro s hs hsuf e h
    cases s with
    | nil =>
      rw [scanStringP.eq_def] at h
      cases h
      exact .inr ⟨_, _, rfl, List.suffix_rfl, fun doc _ => by simp [Shows, hq]⟩
    | cons c s =>
      simp only [List.length_cons] at hs
      have hsuf1 : s <:+ start := (List.suffix_cons c s).trans hsuf
      rw [scanStringP.eq_def] at h
      dsimp only at h
      split at h
      · cases h
      split at h
      · rename_i hbs
        subst hbs
        split at h
        · cases h
          exact .inr ⟨_, _, rfl, List.suffix_rfl, fun doc _ => by simp [Shows, hq]⟩
        · rename_i e' r1
          simp only [List.length_cons] at hs
          split at h
          · rename_i hu
            subst hu
            split at h
            · rename_i a b c d r5
              have h5 : r5 <:+ start := by
                refine List.IsSuffix.trans ?_ hsuf1
                exact ⟨['u', a, b, c, d], rfl⟩
              split at h
              · rename_i he
                cases h
                exact .inr ⟨_, _, decodeUP_err he, hsuf1, fun doc hd => by
                  simp [Shows, hsuf.trans hd]⟩
              · split at h
                · rename_i he
                  cases h
                  obtain ⟨he1, r', he2⟩ := pairStepP_err he
                  refine .inr ⟨_, _, he1, (List.drop_suffix _ _).trans h5, fun doc hd => ?_⟩
                  have := h5.trans hd
                  rw [he2] at this ⊢
                  simp [Shows, this]
                · rename_i u k hp
                  rcases consTextP_err h with h | h
                  · exact .inl h
                  · exact ih _ (by simp only [List.length_drop, List.length_cons] at *; omega)
                      ((List.drop_suffix _ _).trans h5) _ h
            · cases h
              exact .inr ⟨_, _, rfl, hsuf1, fun doc hd => by simp [Shows, hsuf.trans hd]⟩
          · rename_i hu
            split at h
            · rename_i hb
              cases h
              exact .inr ⟨_, _, rfl, hsuf1, fun doc hd => by simp [Shows, hsuf.trans hd, hu, backslash_none hb]⟩
            · rcases consTextP_err h with h | h
              · exact .inl h
              · exact ih _ (by omega) ((List.suffix_cons _ _).trans hsuf1) _ h
      · split at h
        · rename_i hlt
          cases h
          exact .inr ⟨_, _, rfl, hsuf1, fun doc hd => by
            simp only [Shows]
            simp
            exact ⟨c, hlt, hsuf.trans hd⟩⟩
        · rcases consTextP_err h with h | h
          · exact .inl h
          · exact ih _ (by omega) hsuf1 _ h

/-! ### errors of values -/

/-- An error points into what was to be scanned; one about a key points at the last key of
the object that has the key. -/
def Placed (Str : List Char → JText → Prop) (doc s : List Char) (e : JPErr) : Prop :=
  (∀ rest, e.rest? = some rest → rest <:+ s) ∧
  (∀ msg k rest key, e = .cfn msg (some k) rest key →
    ∃ m last q, BadObject Str doc k m msg key last ∧ doc = q ++ rest ∧
      last.sl = (row q : Int) ∧ last.sc = (column q : Int) + 1) ∧
  (∀ msg rest, e = .std msg rest → Shows doc msg rest) ∧
  (∀ msg a rest key, e = .cfn msg a rest key → Shows doc msg rest ∧ (a = none → key = [0x20])) ∧
  ∀ rest, e = .stop rest → rest = s ∧ ∀ c, rest.head? = some c → c ∉ ['"', '{', '[']

theorem placed_mono {Str : List Char → JText → Prop} {doc s s' : List Char} {e : JPErr}
    (h : Placed Str doc s e) (hs : s <:+ s') (hne : ∀ r, e ≠ .stop r) : Placed Str doc s' e :=
  ⟨fun r hr => (h.1 r hr).trans hs, h.2.1, h.2.2.1, h.2.2.2.1, fun r hr => absurd hr (hne r)⟩

theorem placed_cfn {Str : List Char → JText → Prop} {doc s rest : List Char} {msg : String}
    (h : rest <:+ s) (hs : Shows doc msg rest) : Placed Str doc s (cfnErr msg rest) := by
  refine ⟨?_, ?_, ?_, ?_, ?_⟩
  · intro r hr
    cases hr
    exact h
  · intro m k r key he
    cases he
  · intro m r he
    cases he
  · intro m a r key he
    cases he
    exact ⟨hs, fun _ => rfl⟩
  · intro r he
    cases he

theorem placed_std {Str : List Char → JText → Prop} {doc s rest : List Char} {msg : String}
    (h : rest <:+ s) (hs : Shows doc msg rest) : Placed Str doc s (.std msg rest) := by
  refine ⟨?_, ?_, ?_, ?_, ?_⟩
  · intro r hr
    cases hr
    exact h
  · intro m k r key he
    cases he
  · intro m r he
    cases he
    exact hs
  · intro m a r key he
    cases he
  · intro r he
    cases he

theorem placed_stop {Str : List Char → JText → Prop} {doc s : List Char}
    (h : ∀ c, s.head? = some c → c ∉ ['"', '{', '[']) : Placed Str doc s (.stop s) := by
  refine ⟨?_, ?_, ?_, ?_, ?_⟩
  · intro r hr
    cases hr
    exact List.suffix_rfl
  · intro m k r key he
    cases he
  · intro m r he
    cases he
  · intro m a r key he
    cases he
  · intro r he
    cases he
    exact ⟨rfl, h⟩

theorem placed_bare {Str : List Char → JText → Prop} {doc s : List Char} {e : JPErr}
    (h : e = .type ∨ e = .fuel ∨ e = .value) : Placed Str doc s e := by
  rcases h with rfl | rfl | rfl <;> exact ⟨fun _ h => (by cases h), fun _ _ _ _ h => (by cases h),
    fun _ _ h => (by cases h), fun _ _ _ _ h => (by cases h), fun _ h => (by cases h)⟩

theorem placed_string {Str : List Char → JText → Prop} {int16 : List Char → Option Int} {doc start s : List Char}
    {e : JPErr} (hs : s <:+ start) (hq : start.head? = some '"') (hd : start <:+ doc)
    (h : scanStringP int16 start s = .error e) : Placed Str doc start e := by
  rcases scanStringP_err hq _ _ (Nat.le_refl _) hs _ h with rfl | ⟨msg, rest, rfl, hr, hsh⟩
  · exact placed_bare (.inr (.inr rfl))
  · exact placed_cfn hr (hsh doc hd)

theorem skipWs_head {s r : List Char} {d : Char} (h : skipWs s = d :: r) : ¬ BlankChar d := by
  intro hb
  have : isJsonWs d = false := by
    have := List.head?_dropWhile_not isJsonWs s
    unfold skipWs at h
    rw [h] at this
    simpa using this
  rw [(isJsonWs_iff d).2 hb] at this
  cases this

theorem skipWs_suffix (s : List Char) : skipWs s <:+ s := by
  obtain ⟨w, _, h⟩ := skipWs_split s
  exact ⟨w, h.symm⟩

theorem skipWs_suffix_cons {s r : List Char} {d : Char} (h : skipWs s = d :: r) : d :: r <:+ s :=
  h ▸ skipWs_suffix s

theorem skipWs_fresh (s : List Char) : ∀ c, (skipWs s).head? = some c → ¬ BlankChar c := by
  intro c hc
  cases h : skipWs s with
  | nil => rw [h] at hc; cases hc
  | cons d r =>
    rw [h] at hc
    cases hc
    exact skipWs_head h

theorem goesOn_nil (cs : List Char) : GoesOn [] cs := by intro c h; cases h

theorem goesOn_cons {d : Char} {r cs : List Char} (h : ¬ BlankChar d) (hc : d ∉ cs) : GoesOn (d :: r) cs := by
  intro c hd
  cases hd
  exact ⟨h, hc⟩

/-- errors stand where they should -/
def MarkErrs (Str : List Char → JText → Prop) (int16 : List Char → Option Int) (doc : List Char) (n : Nat) : Prop :=
  (∀ s e, s <:+ doc → markOnce int16 doc n s = .error e → Placed Str doc s e) ∧
  (∀ s e, s <:+ doc → (∀ c, s.head? = some c → ¬ BlankChar c) → markItems int16 doc n s = .error e →
    Placed Str doc s e ∧ ∀ r, e ≠ .stop r) ∧
  (∀ s e, '"' :: s <:+ doc → markMembers int16 doc n s = .error e →
    Placed Str doc ('"' :: s) e ∧ ∀ r, e ≠ .stop r)

theorem mark_errs {Str : List Char → JText → Prop} {int16 : List Char → Option Int} (doc : List Char)
    (hS : ∀ s t r, scanString int16 s = .ok (t, r) → ∃ k, s = k ++ '"' :: r ∧ Str k t)
    (hL : ∀ k t, Str k t → t.length ≤ k.length) : ∀ n, MarkErrs Str int16 doc n := by
  intro n
  induction n with
  | zero =>
    refine ⟨?_, ?_, ?_⟩
    · intro s e _ h; cases h; exact placed_bare (.inr (.inl rfl))
    · intro s e _ _ h; cases h; exact ⟨placed_bare (.inr (.inl rfl)), fun r h => by cases h⟩
    · intro s e _ h; cases h; exact ⟨placed_bare (.inr (.inl rfl)), fun r h => by cases h⟩
  | succ n ih =>
    obtain ⟨ih1, ih2, ih3⟩ := ih
    obtain ⟨so1, so2, so3⟩ := mark_sound doc hS hL n
    refine ⟨?_, ?_, ?_⟩
    · intro s e hsuf h
      unfold markOnce at h
      split at h
      · cases h
        exact placed_stop (fun c hc => by cases hc)
      · rename_i c r0
        have hr0 : r0 <:+ c :: r0 := List.suffix_cons _ _
        split at h
        · rename_i hc
          split at h
          · cases h
          · rename_i e' he
            cases h
            exact placed_string hr0 (by rw [hc]; rfl) hsuf he
        rename_i hc1
        split at h
        · rename_i hc
          subst hc
          split at h
          · cases h
            exact placed_cfn List.nil_suffix (by simp [Shows, goesOn_nil])
          · rename_i d r' heq
            have hd := skipWs_suffix_cons heq
            split at h
            · unfold finishObjectP at h
              simp [checkDuplicatesP] at h
            split at h
            · rename_i hq
              subst hq
              split at h
              · rename_i pairs last key r'' hm
                obtain ⟨pre, hpre⟩ := hsuf
                obtain ⟨w, hw, hr⟩ := skipWs_split r0
                rw [heq] at hr
                obtain ⟨s', h1, h2, h3, hsh, hlq⟩ := so3 (pre ++ '{' :: w) _ _ _ _ _
                  (by rw [← hpre, hr]; simp) hm
                unfold finishObjectP at h
                split at h
                · cases h
                · rename_i msg k hck
                  cases h
                  obtain ⟨before, m, x, q, h4, h5, h6, h7⟩ := h3
                  obtain ⟨mk, ho⟩ := offends_of hck
                  refine ⟨?_, ?_, ?_, ?_, ?_⟩
                  · intro rest hrest
                    cases hrest
                    exact (hsh.trans hd).trans hr0
                  · intro msg' k' rest key' he
                    cases he
                    refine ⟨mk, m, q, ⟨pre, w ++ s', r'', pairs, ?_, ?_, ho, before, x, h4⟩, h5, h6, h7⟩
                    · rw [← hpre, hr, h1]; simp
                    · exact marks_members_blank hw (by simpa using h2)
                  · intro m r he
                    cases he
                  · intro m a r key' he
                    cases he
                    obtain ⟨_, _, _, _, _, ⟨_, rfl⟩ | ⟨_, _, rfl⟩⟩ := ho <;> exact ⟨by simp [Shows, hlq], fun h => by cases h⟩
                  · intro r he
                    cases he
              · rename_i e' he
                cases h
                obtain ⟨h1, h2⟩ := ih3 _ _ (hd.trans (hr0.trans hsuf)) he
                exact placed_mono h1 (hd.trans hr0) h2
            · rename_i hq
              cases h
              exact placed_cfn (hd.trans hr0)
                (by simp [Shows, goesOn_cons (skipWs_head heq) (cs := ['"']) (by simpa using hq)])
        rename_i hc2
        split at h
        · rename_i hc
          subst hc
          split at h
          · cases h
            exact placed_std List.nil_suffix (by simp [Shows, goesOn_nil])
          · rename_i d r' heq
            have hd := skipWs_suffix_cons heq
            split at h
            · cases h
            · split at h
              · cases h
              · rename_i e' he
                cases h
                obtain ⟨h1, h2⟩ := ih2 _ _ (hd.trans (hr0.trans hsuf))
                  (fun c hc => by cases hc; exact skipWs_head heq) he
                exact placed_mono h1 (hd.trans hr0) h2
        · rename_i hc3
          split at h
          · cases h
          · cases h
            refine placed_stop ?_
            intro x hx
            cases hx
            simp [hc1, hc2, hc3]
    · intro s e hsuf hb h
      unfold markItems at h
      split at h
      · rename_i r he
        cases h
        obtain ⟨h1, h2, h3, h4, h5⟩ := ih1 _ _ hsuf he
        obtain ⟨rfl, h6⟩ := h5 _ rfl
        refine ⟨placed_std List.suffix_rfl ?_, fun r h => by cases h⟩
        have : GoesOn r ['"', '{', '['] := fun c hc => ⟨hb c hc, h6 c hc⟩
        simp [Shows, this]
      · rename_i e' hne he
        cases h
        exact ⟨ih1 _ _ hsuf he, fun r h => hne r (by rw [h])⟩
      · rename_i v r hv
        obtain ⟨p, hp⟩ := hsuf
        obtain ⟨s', h1, _⟩ := so1 p _ _ _ hp.symm hv
        have hr : r <:+ s := ⟨s', h1.symm⟩
        split at h
        · cases h
          exact ⟨placed_std List.nil_suffix (by simp [Shows, goesOn_nil]), fun r h => by cases h⟩
        · rename_i d r' heq
          have hd := skipWs_suffix_cons heq
          split at h
          · cases h
          rename_i hd1
          split at h
          · split at h
            · cases h
            · rename_i e' he
              cases h
              have hsk : skipWs r' <:+ s :=
                (skipWs_suffix r').trans ((List.suffix_cons d r').trans (hd.trans hr))
              obtain ⟨h1, h2⟩ := ih2 _ _ (hsk.trans ⟨p, hp⟩) (skipWs_fresh r') he
              exact ⟨placed_mono h1 hsk h2, h2⟩
          · rename_i hd2
            cases h
            refine ⟨placed_std (hd.trans hr) ?_, fun r h => by cases h⟩
            have : GoesOn (d :: r') [',', ']'] := goesOn_cons (skipWs_head heq) (by simp [hd1, hd2])
            simp [Shows, this]
    · intro s e hsuf h
      unfold markMembers at h
      split at h
      · rename_i e' he
        cases h
        refine ⟨placed_string (List.suffix_cons _ _) rfl hsuf he, ?_⟩
        rintro r rfl
        rcases scanStringP_err rfl _ _ (Nat.le_refl _) (List.suffix_cons _ _) _ he with h | ⟨_, _, h, _⟩ <;> cases h
      · rename_i k r hk
        obtain ⟨ks, hks, _⟩ := hS _ _ _ (scanStringP_ok hk)
        have hr : r <:+ '"' :: s := by
          refine List.IsSuffix.trans ?_ (List.suffix_cons _ _)
          exact ⟨ks ++ ['"'], by rw [hks]; simp⟩
        split at h
        · cases h
          exact ⟨placed_cfn List.nil_suffix (by simp [Shows, goesOn_nil]), fun r h => by cases h⟩
        · rename_i d r1 heq
          have hd := (skipWs_suffix_cons heq).trans hr
          split at h
          · have hsk : skipWs r1 <:+ '"' :: s := (skipWs_suffix r1).trans ((List.suffix_cons d r1).trans hd)
            split at h
            · cases h
              exact ⟨placed_bare (.inl rfl), fun r h => by cases h⟩
            · rename_i e' hne he
              cases h
              have hns : ∀ r, e ≠ .stop r := fun r h => hne r (by rw [h])
              exact ⟨placed_mono (ih1 _ _ (hsk.trans hsuf) he) hsk hns, hns⟩
            · rename_i v r2 hv
              obtain ⟨p, hp⟩ := hsk.trans hsuf
              obtain ⟨s', h1, _⟩ := so1 p _ _ _ hp.symm hv
              have hr2 : r2 <:+ '"' :: s := List.IsSuffix.trans ⟨s', h1.symm⟩ hsk
              dsimp only at h
              split at h
              · cases h
                exact ⟨placed_cfn List.nil_suffix (by simp [Shows, goesOn_nil]), fun r h => by cases h⟩
              · rename_i d' r3 heq3
                have hd3 := (skipWs_suffix_cons heq3).trans hr2
                split at h
                · cases h
                rename_i hd1
                split at h
                · split at h
                  · cases h
                    exact ⟨placed_cfn List.nil_suffix (by simp [Shows, goesOn_nil]), fun r h => by cases h⟩
                  · rename_i q r4 heq4
                    have hd4 := (skipWs_suffix_cons heq4).trans ((List.suffix_cons d' r3).trans hd3)
                    split at h
                    · rename_i hq
                      subst hq
                      split at h
                      · cases h
                      · rename_i e' he
                        cases h
                        obtain ⟨h1, h2⟩ := ih3 _ _ (hd4.trans hsuf) he
                        exact ⟨placed_mono h1 hd4 h2, h2⟩
                    · rename_i hq
                      cases h
                      refine ⟨placed_cfn hd4 ?_, fun r h => by cases h⟩
                      simp [Shows, goesOn_cons (skipWs_head heq4) (cs := ['"']) (by simpa using hq)]
                · rename_i hd2
                  cases h
                  refine ⟨placed_cfn hd3 ?_, fun r h => by cases h⟩
                  have : GoesOn (d' :: r3) [',', '}'] := goesOn_cons (skipWs_head heq3) (by simp [hd1, hd2])
                  simp [Shows, this]
          · rename_i hd1
            cases h
            refine ⟨placed_cfn hd ?_, fun r h => by cases h⟩
            simp [Shows, goesOn_cons (skipWs_head heq) (cs := [':']) (by simpa using hd1)]

end CfnLint
