import Verif.Spec.Password
import Verif.Lemmas.Search
import Verif.Lemmas.Finds
import Verif.Lemmas.Config
import Verif.Props.SecureRefs
import Verif.Props.RefTable
/-
C112: passwords, and parameters for images.
-/
namespace CfnLint
open Spec Rx

/-- a line with a part of a kind: what the regular expressions of dynamic references take -/
theorem matches_line {rx : Rx} {R : List Char → Prop}
    (hl : ∀ l, Lang rx l ↔ ∃ a r b, '\n' ∉ a ∧ R r ∧ '\n' ∉ b ∧ l = a ++ (r ++ b)) (hR : ∀ r, R r → '\n' ∉ r ∧ r ≠ []) (s : String) :
    rx.matchesAll s = true ↔ HasPart R s ∧ IsLine s := by
  rw [matchesAll_iff]
  unfold MaybeBreak HasPart IsLine
  simp only [hl]
  constructor
  · rintro ⟨_, ⟨a, r, b, ha, hr, hb, rfl⟩, h⟩
    have hl : '\n' ∉ a ++ (r ++ b) := by
      simp only [List.mem_append, not_or]
      exact ⟨ha, (hR r hr).1, hb⟩
    refine ⟨?_, _, hl, h⟩
    rcases h with h | h
    · exact ⟨a, r, b, hr, h⟩
    · exact ⟨a, r, b ++ ['\n'], hr, by rw [h]; simp⟩
  · rintro ⟨⟨a, r, b, hr, h⟩, l, hl, h' | h'⟩
    · refine ⟨l, ?_, .inl h'⟩
      rw [h] at h'
      subst h'
      simp only [List.mem_append, not_or] at hl
      exact ⟨a, r, b, hl.1, hr, hl.2.2, rfl⟩
    · refine ⟨l, ?_, .inr h'⟩
      rw [h] at h'
      have hlast : ∃ b', b = b' ++ ['\n'] := by
        rcases List.eq_nil_or_concat b with rfl | ⟨b', c, rfl⟩
        · exfalso
          obtain ⟨h1, h2⟩ := hR r hr
          rcases List.eq_nil_or_concat r with rfl | ⟨r', c, rfl⟩
          · exact h2 rfl
          · have e := congrArg List.getLast? h'
            simp at e
            subst e
            simp at h1
        · have e := congrArg List.getLast? h'
          simp at e
          subst e
          exact ⟨b', by simp⟩
      obtain ⟨b', rfl⟩ := hlast
      rw [← List.append_assoc, ← List.append_assoc] at h'
      have e := List.append_cancel_right h'
      rw [List.append_assoc] at e
      subst e
      simp only [List.mem_append, not_or] at hl
      exact ⟨a, r, b', hl.1, hr, hl.2.2, rfl⟩

theorem lang_anyStar (l : List Char) : Lang (.star rxAny) l ↔ '\n' ∉ l := by
  unfold rxAny
  simp only [lang_star_chars (fun w => lang_set), decide_eq_true_iff]
  exact ⟨fun h hm => h _ hm rfl, fun h c hc e => h (e ▸ hc)⟩

/-- C112: the texts with a dynamic reference: a line that has one. -/
theorem C112_dynamic (s : String) : regexDynRef.matchesAll s = true ↔ HasPart DynRef s ∧ IsLine s := by
  refine matches_line (fun l => ?_) (fun r hr => ?_) s
  · unfold regexDynRef DynRef
    have some : ∀ l, Lang (rxSome rxAny) l ↔ l ≠ [] ∧ '\n' ∉ l := by
      intro l
      unfold rxAny
      rw [lang_rxSome]
      simp only [decide_eq_true_iff]
      exact ⟨fun h => ⟨h.1, fun hm => h.2 _ hm rfl⟩, fun h => ⟨h.1, fun c hc e => h.2 (e ▸ hc)⟩⟩
    simp only [lang_seq, lang_anyStar, lang_word, some]
    constructor
    · rintro ⟨a, _, ha, ⟨_, _, rfl, ⟨n, _, ⟨hn, hn'⟩, ⟨_, b, rfl, hb, rfl⟩, rfl⟩, rfl⟩, rfl⟩
      exact ⟨a, _, b, ha, ⟨n, hn, hn', rfl⟩, hb, by simp⟩
    · rintro ⟨a, _, b, ha, ⟨n, hn, hn', rfl⟩, hb, rfl⟩
      exact ⟨a, _, ha, ⟨_, _, rfl, ⟨n, _, ⟨hn, hn'⟩, ⟨_, b, rfl, hb, rfl⟩, rfl⟩, rfl⟩, by simp⟩
  · obtain ⟨n, -, hn, rfl⟩ := hr
    refine ⟨fun hm => ?_, by simp⟩
    rcases List.mem_append.1 hm with hm | hm
    · exact absurd hm (by decide)
    rcases List.mem_append.1 hm with hm | hm
    · exact hn hm
    · exact absurd hm (by decide)

/-- C112: the texts with a dynamic reference to a parameter that is not secure. -/
theorem C112_ssm {digit : Char → Bool} (hd : digit '\n' = false) (s : String) :
    (regexSsm digit).matchesAll s = true ↔ HasPart (SsmRef digit) s ∧ IsLine s := by
  refine matches_line (fun l => ?_) (fun r hr => ?_) s
  · unfold regexSsm SsmRef
    simp only [lang_seq, lang_anyStar, lang_word, lang_rxSome, lang_chr, isParamChar_iff]
    constructor
    · rintro ⟨a, _, ha, ⟨_, _, rfl, ⟨n, _, ⟨hn, hn'⟩, ⟨_, _, rfl, ⟨v, _, ⟨hv, hv'⟩, ⟨_, b, rfl, hb, rfl⟩, rfl⟩, rfl⟩, rfl⟩, rfl⟩, rfl⟩
      exact ⟨a, _, b, ha, ⟨n, v, hn, hn', hv, hv', rfl⟩, hb, by simp⟩
    · rintro ⟨a, _, b, ha, ⟨n, v, hn, hn', hv, hv', rfl⟩, hb, rfl⟩
      exact ⟨a, _, ha, ⟨_, _, rfl, ⟨n, _, ⟨hn, hn'⟩, ⟨_, _, rfl, ⟨v, _, ⟨hv, hv'⟩, ⟨_, b, rfl, hb, rfl⟩, rfl⟩, rfl⟩, rfl⟩, rfl⟩, by simp⟩
  · obtain ⟨n, v, -, hn, -, hv, rfl⟩ := hr
    refine ⟨fun hm => ?_, by simp⟩
    rcases List.mem_append.1 hm with hm | hm
    · exact absurd hm (by decide)
    rcases List.mem_append.1 hm with hm | hm
    · exact absurd (isParamChar_iff.2 (hn _ hm)) (by decide)
    rcases List.mem_cons.1 hm with hm | hm
    · cases hm
    rcases List.mem_append.1 hm with hm | hm
    · have := hv _ hm
      rw [hd] at this
      cases this
    · exact absurd hm (by decide)

theorem wfDict_keys {kvs : List (Key × Val)} (h : (Val.dict kvs).WF) : (kvs.map Prod.fst).Nodup := by
  simp only [Val.WF] at h
  exact h.1

/-- the values found and kept are those of the properties of resources -/
theorem mem_kept {t : Val} (hres : ∀ k v, At t [.str "Resources", k] v → ∃ kvs, v = .dict kvs) {name : String} (hn : name ≠ "Resources")
    (hp : name ≠ "Properties") {p : Path} {v : Val} :
    (p, v) ∈ (searchDeepKeys name t (.dict [])).filter inProperties ↔ PropertyAt t name p v := by
  have hempty : searchVal name (.dict []) [] = [] := by simp [searchVal, searchDict]
  unfold searchDeepKeys
  rw [List.mem_filter, hempty, List.append_nil, mem_searchVal]
  constructor
  · rintro ⟨⟨q, rfl, hat, ⟨r, hr⟩⟩, hin⟩
    subst hr
    unfold inProperties at hin
    rw [Bool.and_eq_true, beq_iff_eq, beq_iff_eq] at hin
    obtain ⟨h0, h2⟩ := hin
    have keyStr : ∀ {k : Key} {s : String}, k.toVal = .str s → k = .str s := by
      intro k s h
      cases k <;> simp [Key.toVal] at h
      rw [h]
    match r, hat, h0, h2 with
    | [], _, h0, _ =>
      simp [Key.toVal] at h0
      exact absurd h0 hn
    | [a], hat, h0, h2 =>
      simp at h0 h2
      rw [keyStr h0] at hat
      obtain ⟨kvs, hk⟩ := hres _ _ hat
      rw [h2] at hk
      cases hk
    | [a, b], _, _, h2 =>
      simp [Key.toVal] at h2
      exact absurd h2 hp
    | a :: b :: c :: r, hat, h0, h2 =>
      simp at h0 h2
      rw [keyStr h0, keyStr h2] at hat ⊢
      exact ⟨b, r, rfl, hat⟩
  · rintro ⟨res, q, rfl, hat⟩
    exact ⟨⟨_, rfl, hat, .str "Resources" :: res :: .str "Properties" :: q, rfl⟩, by simp [inProperties, Key.toVal]⟩

theorem mem_passwordNames {name : String} : name ∈ passwordProperties ↔ name ∈ passwordNames := by
  unfold passwordProperties passwordNames
  simp only [List.mem_cons, List.not_mem_nil, or_false]
  constructor
  all_goals
    intro h
    rcases h with h | h | h | h | h | h | h | h | h <;> simp [h]

theorem isShown_spec {param : List (Key × Val)} (hn : (param.map Prod.fst).Nodup) :
    ∃ b, isShown (.dict param) = .ok b ∧ (b = true ↔ Shown param) := by
  unfold isShown Shown
  simp only [pyIn]
  cases h : dhas (.str "NoEcho") param with
  | false =>
    refine ⟨true, rfl, iff_of_true rfl fun v hv => ?_⟩
    have := dhas_iff.2 (List.mem_map_of_mem (f := Prod.fst) hv)
    rw [h] at this
    cases this
  | true =>
    obtain ⟨⟨k, v⟩, hm, hk⟩ := List.mem_map.1 (dhas_iff.1 h)
    cases hk
    refine ⟨!v.truthy, by simp [noEchoItem, dlookup_of_mem hn hm], ?_⟩
    constructor
    · intro hv w hw
      have := dlookup_of_mem hn hm
      rw [dlookup_of_mem hn hw] at this
      cases this
      simpa using hv
    · intro hv
      simpa using hv v hm

/-- C112: what is found of passwords: texts that are no dynamic references, dynamic references that are not secure, objects with several entries, and parameters
that nothing says are not to be shown. Nothing else is found, and the rule does not fail. -/
theorem C112_password {digit : Char → Bool} (hd : digit '\n' = false) {t : Val} (hw : t.WF) (hobj : ∃ kvs, t = .dict kvs)
    (hres : ∀ k v, At t [.str "Resources", k] v → ∃ kvs, v = .dict kvs)
    (hpar' : ∀ k v, At t [.str "Parameters", .str k] v → ∃ kvs, v = .dict kvs)
    (href : ∀ name p v, PropertyAt t name p (.dict [(.str "Ref", v)]) → ∃ s, v = .str s) :
    ∃ fs, passwordRule digit t (.dict []) = .ok fs ∧ ∀ p f, (p, f) ∈ fs ↔ PasswordFault digit t p f := by
  obtain ⟨kvs, rfl⟩ := hobj
  have hnd : (kvs.map Prod.fst).Nodup := wfDict_keys hw
  -- the parameters
  have hparams : ∃ ps, parametersOf (.dict kvs) = .ok ps ∧ (ps.map Prod.fst).Nodup ∧
      ∀ (k : String) v, (Key.str k, v) ∈ ps ↔ At (.dict kvs) [.str "Parameters", .str k] v := by
    unfold parametersOf
    simp only [Val.getD]
    cases h : dlookup (Key.str "Parameters") kvs with
    | none =>
      refine ⟨[], rfl, List.nodup_nil, fun k v => iff_of_false (by simp) ?_⟩
      intro hat
      cases hat with
      | key hm _ => rw [dlookup_of_mem hnd hm] at h; cases h
    | some w =>
      by_cases hdict : ∃ ps, w = .dict ps
      case neg =>
        refine ⟨[], ?_, List.nodup_nil, fun k v => iff_of_false (by simp) ?_⟩
        · cases w with
          | dict ps => exact absurd ⟨ps, rfl⟩ hdict
          | _ => rfl
        · intro hat
          cases hat with
          | key hm hat =>
            rw [dlookup_of_mem hnd hm] at h
            cases h
            cases hat with
            | key hm hat => exact hdict ⟨_, rfl⟩
      obtain ⟨ps, rfl⟩ := hdict
      refine ⟨ps, rfl, wfDict_keys (at_wf (.key (dlookup_mem h) .here) hw), fun k v => ⟨fun hm => .key (dlookup_mem h) (.key hm .here), ?_⟩⟩
      intro hat
      cases hat with
      | key hm hat =>
        rw [dlookup_of_mem hnd hm] at h
        cases h
        cases hat with
        | key hm hat => cases hat; exact hm
  obtain ⟨ps, hps, hpn, hpm⟩ := hparams
  -- one value
  have one : ∀ name ∈ passwordNames, ∀ x : Path × Val, PropertyAt (.dict kvs) name x.1 x.2 → ∃ fs, passwordOne digit ps name x = .ok fs ∧ ∀ y, y ∈ fs ↔
      ((∃ s, x.2 = .str s ∧ HasPart DynRef s ∧ HasPart (SsmRef digit) s ∧ IsLine s ∧ y = (x.1, .insecure)) ∨
       (∃ s, x.2 = .str s ∧ ¬ (HasPart DynRef s ∧ IsLine s) ∧ y = (x.1, .fixed)) ∨
       (∃ l, x.2 = .dict l ∧ l.length ≠ 1 ∧ y = (x.1, .map)) ∨
       (∃ par param, x.2 = .dict [(.str "Ref", .str par)] ∧ At (.dict kvs) [.str "Parameters", .str par] (.dict param) ∧ Shown param ∧
          y = ([.str "Parameters", .str par], .shown name))) := by
    rintro name - ⟨p, v⟩ hx
    unfold passwordOne
    cases v with
    | str s =>
      simp only
      by_cases h1 : HasPart DynRef s ∧ IsLine s
      · rw [if_pos ((C112_dynamic s).2 h1)]
        refine ⟨_, rfl, fun y => ?_⟩
        by_cases h2 : HasPart (SsmRef digit) s
        · rw [if_pos ((C112_ssm hd s).2 ⟨h2, h1.2⟩)]
          simp [h1, h2]
        · rw [if_neg (fun h => h2 ((C112_ssm hd s).1 h).1)]
          simp [h1, h2]
      · rw [if_neg (fun h => h1 ((C112_dynamic s).1 h))]
        refine ⟨_, rfl, fun y => ?_⟩
        have : ¬ (HasPart DynRef s ∧ HasPart (SsmRef digit) s ∧ IsLine s) := fun h => h1 ⟨h.1, h.2.2⟩
        constructor
        · intro h
          exact .inr (.inl ⟨s, rfl, h1, by simpa using h⟩)
        · rintro (⟨_, h, h3, h4, h5, -⟩ | ⟨_, _, _, rfl⟩ | ⟨_, h, _⟩ | ⟨_, _, h, _⟩)
          · cases h
            exact absurd ⟨h3, h4, h5⟩ this
          · simp
          · cases h
          · cases h
    | dict l =>
      match l, hx with
      | [], _ => exact ⟨_, rfl, fun y => by simp⟩
      | a :: b :: l, _ => exact ⟨_, rfl, fun y => by simp⟩
      | [(k, v)], hx =>
        simp only
        by_cases hk : k = .str "Ref"
        · subst hk
          obtain ⟨s, rfl⟩ := href _ _ _ hx
          rw [if_pos rfl]
          simp only [toKey]
          cases h : dlookup (Key.str s) ps with
          | none =>
            refine ⟨_, rfl, fun y => ?_⟩
            simp only [List.not_mem_nil, false_iff]
            rintro (⟨_, h, _⟩ | ⟨_, h, _⟩ | ⟨_, h, h', _⟩ | ⟨par, param, h1, h2, _⟩)
            · cases h
            · cases h
            · cases h; exact h' rfl
            · cases h1
              rw [dlookup_of_mem hpn ((hpm _ _).2 h2)] at h
              cases h
          | some w =>
            have hat := (hpm _ _).1 (dlookup_mem h)
            obtain ⟨param, rfl⟩ := hpar' _ _ hat
            obtain ⟨b, hb, hb'⟩ := isShown_spec (wfDict_keys (at_wf hat hw))
            simp only [hb]
            refine ⟨_, rfl, fun y => ?_⟩
            constructor
            · intro hy
              cases b with
              | false => simp at hy
              | true => exact .inr (.inr (.inr ⟨s, param, rfl, hat, hb'.1 rfl, by simpa using hy⟩))
            · rintro (⟨_, h, _⟩ | ⟨_, h, _⟩ | ⟨_, h, h', _⟩ | ⟨par, param', h1, h2, h3, rfl⟩)
              · cases h
              · cases h
              · cases h; exact absurd rfl h'
              · cases h1
                have e := dlookup_of_mem hpn ((hpm _ _).2 h2)
                rw [h] at e
                cases e
                rw [hb'.2 h3]
                simp
        · rw [if_neg hk]
          refine ⟨_, rfl, fun y => ?_⟩
          simp only [List.not_mem_nil, false_iff]
          rintro (⟨_, h, _⟩ | ⟨_, h, _⟩ | ⟨_, h, h', _⟩ | ⟨par, param, h1, h2, _⟩)
          · cases h
          · cases h
          · cases h; exact h' rfl
          · cases h1; exact hk rfl
    | _ => exact ⟨_, rfl, fun y => by simp⟩
  have hnames : ∀ name ∈ passwordNames, name ≠ "Resources" ∧ name ≠ "Properties" := by decide
  unfold passwordRule
  simp only [hps]
  have all : ∀ name ∈ passwordProperties, ∃ l,
      collectM (passwordOne digit ps name) ((searchDeepKeys name (.dict kvs) (.dict [])).filter inProperties) = .ok l ∧ ∀ y, y ∈ l ↔
      ((∃ p s, PropertyAt (.dict kvs) name p (.str s) ∧ HasPart DynRef s ∧ HasPart (SsmRef digit) s ∧ IsLine s ∧ y = (p, .insecure)) ∨
       (∃ p s, PropertyAt (.dict kvs) name p (.str s) ∧ ¬ (HasPart DynRef s ∧ IsLine s) ∧ y = (p, .fixed)) ∨
       (∃ p l, PropertyAt (.dict kvs) name p (.dict l) ∧ l.length ≠ 1 ∧ y = (p, .map)) ∨
       (∃ p par param, PropertyAt (.dict kvs) name p (.dict [(.str "Ref", .str par)]) ∧ At (.dict kvs) [.str "Parameters", .str par] (.dict param) ∧
          Shown param ∧ y = ([.str "Parameters", .str par], .shown name))) := by
    intro name hname
    rw [mem_passwordNames] at hname
    have hne := hnames name hname
    obtain ⟨l, hl, hl'⟩ := collectM_spec (fun x hx => one name hname x ((mem_kept hres hne.1 hne.2).1 hx))
    refine ⟨l, hl, fun y => ?_⟩
    rw [hl']
    constructor
    · rintro ⟨⟨p, v⟩, hx, h⟩
      have hx := (mem_kept hres hne.1 hne.2).1 hx
      rcases h with ⟨s, rfl, h⟩ | ⟨s, rfl, h⟩ | ⟨l, rfl, h⟩ | ⟨par, param, rfl, h⟩
      · exact .inl ⟨p, s, hx, h⟩
      · exact .inr (.inl ⟨p, s, hx, h⟩)
      · exact .inr (.inr (.inl ⟨p, l, hx, h⟩))
      · exact .inr (.inr (.inr ⟨p, par, param, hx, h⟩))
    · rintro (⟨p, s, hx, h⟩ | ⟨p, s, hx, h⟩ | ⟨p, l, hx, h⟩ | ⟨p, par, param, hx, h⟩)
      · exact ⟨_, (mem_kept hres hne.1 hne.2).2 hx, .inl ⟨s, rfl, h⟩⟩
      · exact ⟨_, (mem_kept hres hne.1 hne.2).2 hx, .inr (.inl ⟨s, rfl, h⟩)⟩
      · exact ⟨_, (mem_kept hres hne.1 hne.2).2 hx, .inr (.inr (.inl ⟨l, rfl, h⟩))⟩
      · exact ⟨_, (mem_kept hres hne.1 hne.2).2 hx, .inr (.inr (.inr ⟨par, param, rfl, h⟩))⟩
  obtain ⟨fs, hfs, hfs'⟩ := collectM_spec all
  refine ⟨fs, hfs, fun p f => ?_⟩
  rw [hfs']
  constructor
  · rintro ⟨name, hname, h⟩
    rw [mem_passwordNames] at hname
    rcases h with ⟨p, s, hx, h1, h2, h3, h⟩ | ⟨p, s, hx, h1, h⟩ | ⟨p, l, hx, h1, h⟩ | ⟨p, par, param, hx, h1, h2, h⟩
    · cases h; exact .insecure hname hx h1 h2 h3
    · cases h; exact .fixed hname hx h1
    · cases h; exact .map hname hx h1
    · cases h; exact .shown hname hx h1 h2
  · intro h
    cases h with
    | insecure hname hx h1 h2 h3 => exact ⟨_, mem_passwordNames.2 hname, .inl ⟨_, _, hx, h1, h2, h3, rfl⟩⟩
    | fixed hname hx h1 => exact ⟨_, mem_passwordNames.2 hname, .inr (.inl ⟨_, _, hx, h1, rfl⟩)⟩
    | map hname hx h1 => exact ⟨_, mem_passwordNames.2 hname, .inr (.inr (.inl ⟨_, _, hx, h1, rfl⟩))⟩
    | shown hname hx h1 h2 => exact ⟨_, mem_passwordNames.2 hname, .inr (.inr (.inr ⟨_, _, _, hx, h1, h2, rfl⟩))⟩

/-- C112, images, in full: what is found of images are objects that are no calls, and parameters of other types. -/
def C112_image_statement : Prop := ∀ (rx : String → String → PyM Bool) (t : Val), MatchesPrefixes rx → SectionsOk t →
  (∀ p v, ImageAt t p (.dict [(.str "Ref", v)]) → ∃ s, v = .str s) →
  ∃ fs, imageIdRule rx t (.dict []) = .ok fs ∧ ∀ p, p ∈ fs ↔ ImageFault t p none ∨ ImageFault t p (some "Parameters")

theorem mem_images {t : Val} {p : Path} {v : Val} :
    (p, v) ∈ (searchDeepKeys "ImageId" t (.dict [])).filter (fun x => x.1[0]? == some (.str "Resources")) ↔ ImageAt t p v := by
  have hempty : searchVal "ImageId" (.dict []) [] = [] := by simp [searchVal, searchDict]
  unfold searchDeepKeys
  rw [List.mem_filter, hempty, List.append_nil, mem_searchVal]
  constructor
  · rintro ⟨⟨q, rfl, hat, ⟨r, hr⟩⟩, hin⟩
    subst hr
    rw [beq_iff_eq] at hin
    cases r with
    | nil => simp at hin
    | cons a r =>
      simp at hin
      subst hin
      exact ⟨r, rfl, hat⟩
  · rintro ⟨q, rfl, hat⟩
    exact ⟨⟨_, rfl, hat, .str "Resources" :: q, rfl⟩, by simp⟩

/-- C112, images, what holds: what is found are objects that are no calls, and whatever of another type an image refers to, wherever it is declared, so long as the
names images refer to are looked up correctly (as in C66). The place of the finding is always in the section of parameters. -/
theorem C112_image_partial {rx : String → String → PyM Bool} {t : Val} (hrx : MatchesPrefixes rx) (h : SectionsOk t)
    (href : ∀ p v, ImageAt t p (.dict [(.str "Ref", v)]) → ∃ s, v = .str s ∧
      (∀ n, Declared t n → n.toList <+: s.toList → Declared t s) ∧
      (Declared t s → ∀ m, IsModule t m → m.toList <+: s.toList → m.toList.length + 2 < s.toList.length)) :
    ∃ fs, imageIdRule rx t (.dict []) = .ok fs ∧ ∀ p, p ∈ fs ↔ ∃ f, ImageFault t p f := by
  obtain ⟨tab, htab, hget⟩ := C66_lookup_partial hrx h
  unfold imageIdRule
  simp only [htab]
  have one : ∀ x ∈ (searchDeepKeys "ImageId" t (.dict [])).filter (fun x => x.1[0]? == some (.str "Resources")),
      ∃ l, imageOne rx tab x = .ok l ∧ ∀ y, y ∈ l ↔ (∃ l, x.2 = .dict l ∧ l.length ≠ 1 ∧ y = x.1) ∨
        (∃ s ty f, x.2 = .dict [(.str "Ref", .str s)] ∧ RefersTo t s ty f ∧ ¬ ImageType ty ∧ y = [.str "Parameters", .str s]) := by
    rintro ⟨p, v⟩ hx
    rw [mem_images] at hx
    unfold imageOne
    cases v with
    | dict l =>
      match l, hx with
      | [], _ => exact ⟨_, rfl, fun y => by simp⟩
      | a :: b :: l, _ => exact ⟨_, rfl, fun y => by simp⟩
      | [(k, v)], hx =>
        simp only
        by_cases hk : k = .str "Ref"
        · subst hk
          obtain ⟨s, rfl, h1, h2⟩ := href _ _ hx
          obtain ⟨r, hr, hr'⟩ := hget s h1 h2
          rw [if_pos rfl, hr]
          cases r with
          | none =>
            refine ⟨_, rfl, fun y => ?_⟩
            simp only [List.not_mem_nil, false_iff]
            rintro (⟨_, h, h', _⟩ | ⟨s, ty, f, h, h3, _⟩)
            · cases h; exact h' rfl
            · cases h
              cases (hr' ty f).2 h3
          | some r =>
            obtain ⟨ty, f⟩ := r
            refine ⟨_, rfl, fun y => ?_⟩
            have hty : (ty == Val.str "AWS::EC2::Image::Id" || ty == Val.str "AWS::SSM::Parameter::Value<AWS::EC2::Image::Id>") = true ↔ ImageType ty := by
              simp [ImageType]
            by_cases hi : ImageType ty
            · rw [if_pos (hty.2 hi)]
              simp only [List.not_mem_nil, false_iff]
              rintro (⟨_, h, h', _⟩ | ⟨s, ty', f', h, h3, h4, _⟩)
              · cases h; exact h' rfl
              · cases h
                cases (hr' ty' f').2 h3
                exact h4 hi
            · rw [if_neg (fun h => hi (hty.1 h))]
              constructor
              · intro hy
                exact .inr ⟨s, ty, f, rfl, (hr' ty f).1 rfl, hi, by simpa [pathKey, toKey] using hy⟩
              · rintro (⟨_, h, h', _⟩ | ⟨s, ty', f', h, h3, h4, rfl⟩)
                · cases h; exact absurd rfl h'
                · cases h
                  simp [pathKey, toKey]
        · rw [if_neg hk]
          refine ⟨_, rfl, fun y => ?_⟩
          simp only [List.not_mem_nil, false_iff]
          rintro (⟨_, h, h', _⟩ | ⟨_, _, _, h1, _⟩)
          · cases h; exact h' rfl
          · cases h1; exact hk rfl
    | _ => exact ⟨_, rfl, fun y => by simp⟩
  obtain ⟨fs, hfs, hfs'⟩ := collectM_spec one
  refine ⟨fs, hfs, fun p => ?_⟩
  rw [hfs']
  constructor
  · rintro ⟨⟨p', v⟩, hx, h⟩
    rw [mem_images] at hx
    rcases h with ⟨l, rfl, h1, rfl⟩ | ⟨s, ty, f, rfl, h1, h2, rfl⟩
    · exact ⟨_, .map hx h1⟩
    · exact ⟨_, .type hx h1 h2⟩
  · rintro ⟨f, h⟩
    cases h with
    | map hx h1 => exact ⟨_, mem_images.2 hx, .inl ⟨_, rfl, h1, rfl⟩⟩
    | type hx h1 h2 => exact ⟨_, mem_images.2 hx, .inr ⟨_, _, _, rfl, h1, h2, rfl⟩⟩

/-- an instance whose image is what another resource refers to -/
def exImage : Val := .dict [(.str "Resources", .dict [
  (.str "Lookup", .dict [(.str "Type", .str "Custom::Lookup")]),
  (.str "Server", .dict [(.str "Type", .str "AWS::EC2::Instance"), (.str "Properties", .dict [(.str "ImageId", .dict [(.str "Ref", .str "Lookup")])])])])]

theorem exImage_ok : SectionsOk exImage := by
  have hw : exImage.WF := by simp [exImage, Val.WF, Val.WFDict]
  refine ⟨hw, ⟨_, rfl⟩, ?_, ?_⟩
  · intro s hs
    have := (follow_at hw).1 hs
    cases this
  · intro s hs
    have := (follow_at hw).1 hs
    change some _ = some s at this
    rw [Option.some.injEq] at this
    subst this
    refine ⟨_, rfl, fun kv hkv => ?_⟩
    simp only [List.mem_cons, List.not_mem_nil, or_false] at hkv
    rcases hkv with rfl | rfl
    · refine ⟨⟨_, rfl, by unfold PlainName; decide⟩, _, rfl, fun ty hty => ?_⟩
      simp at hty
      exact ⟨_, hty⟩
    · refine ⟨⟨_, rfl, by unfold PlainName; decide⟩, _, rfl, fun ty hty => ?_⟩
      simp at hty
      exact ⟨_, hty⟩

/-- the images of the example -/
theorem exImage_at {p : Path} {v : Val} (h : ImageAt exImage p v) : v = .dict [(.str "Ref", .str "Lookup")] := by
  rw [← mem_images] at h
  have : (searchDeepKeys "ImageId" exImage (.dict [])).filter (fun x => x.1[0]? == some (.str "Resources")) =
      [([.str "Resources", .str "Server", .str "Properties", .str "ImageId"], .dict [(.str "Ref", .str "Lookup")])] := by decide
  rw [this] at h
  simp at h
  exact h.2

/-- C112: a resource that an image refers to is reported as a parameter. -/
theorem C112_image_violated : ¬ C112_image_statement := by
  intro h
  obtain ⟨fs, hfs, hiff⟩ := h exRx exImage exRx_ok exImage_ok (fun p v hp => by
    have := exImage_at hp
    simp at this
    exact ⟨_, this⟩)
  have hv : imageIdRule exRx exImage (.dict []) = .ok [[.str "Parameters", .str "Lookup"]] := by decide
  rw [hv] at hfs
  cases hfs
  have hw := exImage_ok.wf
  rcases (hiff [.str "Parameters", .str "Lookup"]).1 (by simp) with h | h
  · cases h with
    | map h1 => obtain ⟨q, hq, -⟩ := h1; simp at hq
  · generalize hs : Key.str "Lookup" = k at h
    generalize hf : "Parameters" = f at h
    cases h with
    | type h1 h2 =>
      cases hs
      generalize hg : "Parameters" = f' at h2
      cases h2 with
      | parameter h3 =>
        have := (follow_at hw).1 h3
        simp [exImage, follow, dlookup] at this
      | resource => simp at hg
      | pseudo => simp at hg
      | module => simp at hg

/-- the hypotheses of `C112_image_partial` are met -/
example : ∃ fs, imageIdRule exRx exImage (.dict []) = .ok fs ∧ ∀ p, p ∈ fs ↔ ∃ f, ImageFault exImage p f := by
  refine C112_image_partial exRx_ok exImage_ok fun p v hp => ?_
  have := exImage_at hp
  simp at this
  have hw := exImage_ok.wf
  have hno : ∀ m, ¬ IsModule exImage m := by
    rintro m ⟨ty, ha, h1⟩
    have h2 := (follow_at hw).1 ha
    have hty : ty = "Custom::Lookup" ∨ ty = "AWS::EC2::Instance" := by
      by_cases e1 : m = "Lookup"
      · simp [follow, exImage, dlookup, e1] at h2
        exact .inl h2.symm
      · by_cases e2 : m = "Server"
        · simp [follow, exImage, dlookup, e2] at h2
          exact .inr h2.symm
        · simp [follow, exImage, dlookup, Ne.symm e1, Ne.symm e2] at h2
    rcases hty with rfl | rfl <;> revert h1 <;> decide
  have hd : Declared exImage "Lookup" := .resource (ty := "Custom::Lookup") ((follow_at hw).2 rfl) (by decide) (hno _)
  exact ⟨_, this, fun _ _ _ => hd, fun _ m hm => absurd hm (hno m)⟩

/-- C112, parameters, in full: a password that is given by a parameter is reported unless the parameter says that it is not to be shown. -/
def C112_statement : Prop := ∀ (digit : Char → Bool) (t : Val) (name : String) (p : Path) (par : String) (param : List (Key × Val)), t.WF →
  name ∈ passwordNames → PropertyAt t name p (.dict [(.str "Ref", .str par)]) → At t [.str "Parameters", .str par] (.dict param) →
  (∀ v, (Key.str "NoEcho", v) ∈ param → v ≠ .bool true ∧ v ≠ .str "true") →
  ∀ fs, passwordRule digit t (.dict []) = .ok fs → ([.str "Parameters", .str par], PwFault.shown name) ∈ fs

/-- a password given by a parameter -/
def exPassword (echo : Val) : Val := .dict [
  (.str "Parameters", .dict [(.str "Secret", .dict [(.str "Type", .str "String"), (.str "NoEcho", echo)])]),
  (.str "Resources", .dict [(.str "User", .dict [(.str "Type", .str "AWS::IAM::User"), (.str "Properties", .dict [
    (.str "LoginProfile", .dict [(.str "Password", .dict [(.str "Ref", .str "Secret")])])])])])]

/-- C112: the text `false` passes. -/
theorem C112_violated : ¬ C112_statement := by
  intro h
  have := h (fun _ => false) (exPassword (.str "false")) "Password"
    [.str "Resources", .str "User", .str "Properties", .str "LoginProfile", .str "Password"] "Secret" _
    (by simp [exPassword, Val.WF, Val.WFDict]) (by decide)
    ⟨.str "User", [.str "LoginProfile"], rfl, .key (List.mem_cons_of_mem _ List.mem_cons_self) (.key List.mem_cons_self
      (.key (List.mem_cons_of_mem _ List.mem_cons_self) (.key List.mem_cons_self (.key List.mem_cons_self .here))))⟩
    (.key List.mem_cons_self (.key List.mem_cons_self .here)) (by simp) [] (by decide)
  simp at this

/-- C112: a password inside of `Fn::If` is not looked at. -/
theorem C112_branches (digit : Char → Bool) (c s s' : String) : passwordRule digit (.dict [(.str "Resources", .dict [(.str "User", .dict [(.str "Properties", .dict [
    (.str "Password", .dict [(.str "Fn::If", .list [.str c, .str s, .str s'])])])])])]) (.dict []) = .ok [] := by
  rfl

/-- the hypotheses of `C112_password` are met, and the parameter is found -/
example : ∃ fs, passwordRule Char.isDigit (exPassword (.bool false)) (.dict []) = .ok fs ∧
    ∀ p f, (p, f) ∈ fs ↔ PasswordFault Char.isDigit (exPassword (.bool false)) p f := by
  have hw : (exPassword (.bool false)).WF := by simp [exPassword, Val.WF, Val.WFDict]
  have hres : ∀ k v, At (exPassword (.bool false)) [.str "Resources", k] v → ∃ kvs, v = .dict kvs := by
    intro k v h
    have := (follow_at hw).1 h
    by_cases e : Key.str "User" = k
    · subst e
      change some _ = some v at this
      rw [Option.some.injEq] at this
      exact ⟨_, this.symm⟩
    · simp [follow, exPassword, dlookup, e] at this
  refine C112_password (by decide) hw ⟨_, rfl⟩ hres ?_ ?_
  · intro k v h
    have := (follow_at hw).1 h
    by_cases e : "Secret" = k
    · subst e
      change some _ = some v at this
      rw [Option.some.injEq] at this
      exact ⟨_, this.symm⟩
    · simp [follow, exPassword, dlookup, e] at this
  · rintro name p v ⟨res, q, rfl, h⟩
    have h' : ([.str "Resources", res, .str "Properties"] ++ (q ++ [.str name]) ++ [.str "Ref"], v) ∈ searchVal "Ref" (exPassword (.bool false)) [] :=
      (mem_searchVal _ _ _ _ _).2 ⟨_, rfl, at_append h (.key List.mem_cons_self .here), .str "Resources" :: res :: .str "Properties" :: (q ++ [.str name]), rfl⟩
    have e : searchVal "Ref" (exPassword (.bool false)) [] =
      [([.str "Resources", .str "User", .str "Properties", .str "LoginProfile", .str "Password", .str "Ref"], .str "Secret")] := by decide
    rw [e] at h'
    simp at h'
    exact ⟨_, h'.2⟩

end CfnLint
