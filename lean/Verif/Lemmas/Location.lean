import Verif.Model.Template
import Verif.Spec.Template
import Verif.Lemmas.Dict
/- Lemmas for `get_location_yaml`. -/
namespace CfnLint
open Spec

theorem eraseDict_keys : ∀ kvs : List (MKey × MVal),
    (MVal.eraseDict kvs).map Prod.fst = kvs.map (fun kv => kv.1.key)
  | [] => rfl
  | (k, v) :: rest => by simp [MVal.eraseDict, eraseDict_keys rest]

theorem wfDict_child : ∀ {kvs : List (MKey × MVal)} {kv}, Val.WFDict (MVal.eraseDict kvs) → kv ∈ kvs → MWF kv.2
  | (k, v) :: rest, kv, h, hm => by
    rw [MVal.eraseDict] at h
    rcases List.mem_cons.1 hm with rfl | hm
    · exact h.1
    · exact wfDict_child h.2 hm

theorem wfList_child : ∀ {xs : List MVal} {x}, Val.WFList (MVal.eraseList xs) → x ∈ xs → MWF x
  | y :: ys, x, h, hm => by
    rw [MVal.eraseList] at h
    rcases List.mem_cons.1 hm with rfl | hm
    · exact h.1
    · exact wfList_child h.2 hm

theorem mwf_child {t c : MVal} {k : Key} (h : MWF t) (hc : Child t k c) : MWF c := by
  cases hc with
  | key hm =>
    rw [MWF, MVal.erase] at h
    exact wfDict_child h.2 hm
  | idx hx =>
    rw [MWF, MVal.erase] at h
    exact wfList_child h (List.mem_of_getElem? hx)

theorem find_mem {k : Key} : ∀ {kvs : List (MKey × MVal)} {v}, MVal.find k kvs = some v →
    ∃ mk, (mk, v) ∈ kvs ∧ mk.key = k
  | (mk, v) :: rest, w, h => by
    rw [MVal.find] at h
    split at h
    · injection h with h; subst h; exact ⟨mk, List.mem_cons_self, by assumption⟩
    · obtain ⟨mk', hm, hk⟩ := find_mem h
      exact ⟨mk', List.mem_cons_of_mem _ hm, hk⟩

theorem find_none {k : Key} : ∀ {kvs : List (MKey × MVal)}, MVal.find k kvs = none →
    ∀ mk v, (mk, v) ∈ kvs → mk.key ≠ k
  | (mk, v) :: rest, h, mk', v', hm => by
    rw [MVal.find] at h
    split at h
    · cases h
    · rename_i hne
      rcases List.mem_cons.1 hm with heq | hm
      · injection heq with h1 h2; subst h1; exact hne
      · exact find_none h mk' v' hm

theorem key_unique {kvs : List (MKey × MVal)} (h : (kvs.map (fun kv => kv.1.key)).Nodup)
    {a b : MKey × MVal} (ha : a ∈ kvs) (hb : b ∈ kvs) (hk : a.1.key = b.1.key) : a = b := by
  induction kvs with
  | nil => cases ha
  | cons x xs ih =>
    rw [List.map_cons, List.nodup_cons] at h
    rcases List.mem_cons.1 ha with h1 | h1 <;> rcases List.mem_cons.1 hb with h2 | h2
    · rw [h1, h2]
    · exact absurd (List.mem_map.2 ⟨b, h2, by rw [← hk, h1]⟩) h.1
    · exact absurd (List.mem_map.2 ⟨a, h1, by rw [hk, h2]⟩) h.1
    · exact ih h.2 h1 h2

theorem find_of_mem {kvs : List (MKey × MVal)} (h : (kvs.map (fun kv => kv.1.key)).Nodup) {mk : MKey} {v : MVal}
    (hm : (mk, v) ∈ kvs) : MVal.find mk.key kvs = some v := by
  cases hf : MVal.find mk.key kvs with
  | none => exact absurd rfl (find_none hf mk v hm)
  | some w =>
    obtain ⟨mk', hm', hk⟩ := find_mem hf
    have := key_unique h hm hm' hk.symm
    injection this with _ h2
    rw [h2]

theorem scanKeys_spec (k : Key) : ∀ (kvs : List (MKey × MVal)) (r : Option Span),
    (kvs.map (fun kv => kv.1.key)).Nodup → scanKeys k (kvs.map Prod.fst) r =
      match kvs.find? (fun kv => kv.1.key = k) with
      | some kv => match kv.1.mark with | some s => some s | none => r
      | none => r
  | [], r, _ => rfl
  | (mk, v) :: rest, r, h => by
    rw [List.map_cons, List.nodup_cons] at h
    rw [List.map_cons, scanKeys]
    by_cases hk : mk.key = k
    · rw [if_pos hk, List.find?_cons_of_pos (by simpa using hk)]
      simp only
      cases hm : mk.mark with
      | none => rfl
      | some s =>
        simp only
        rw [scanKeys_spec k rest (some s) h.2]
        have : rest.find? (fun kv => kv.1.key = k) = none := by
          rw [List.find?_eq_none]
          intro kv hkv heq
          simp only [decide_eq_true_eq] at heq
          exact h.1 (List.mem_map.2 ⟨kv, hkv, by rw [heq, hk]⟩)
        rw [this]
    · rw [if_neg hk, List.find?_cons_of_neg (by simpa using hk)]
      exact scanKeys_spec k rest r h.2

/-- scanning the keys of a dict finds the mark of the key -/
theorem scanKeys_keyMark {m : Span} {kvs : List (MKey × MVal)} {k : Key}
    (h : (kvs.map (fun kv => kv.1.key)).Nodup) (s : Span) :
    scanKeys k (kvs.map Prod.fst) none = some s ↔ KeyMark (.dict m kvs) k s := by
  rw [scanKeys_spec k kvs none h]
  constructor
  · intro hs
    cases hf : kvs.find? (fun kv => kv.1.key = k) with
    | none => rw [hf] at hs; cases hs
    | some kv =>
      rw [hf] at hs
      simp only at hs
      have hkv := List.find?_some hf
      simp only [decide_eq_true_eq] at hkv
      have hm := List.mem_of_find?_eq_some hf
      cases hmk : kv.1.mark with
      | none => rw [hmk] at hs; cases hs
      | some s' =>
        rw [hmk] at hs
        injection hs with hs
        subst hs hkv
        exact .key (v := kv.2) hm hmk
  · intro hk
    generalize hd : MVal.dict m kvs = d at hk
    cases hk with
    | @key m' kvs' mk v _ hm hs =>
      injection hd with _ hd
      subst hd
      cases hf : kvs.find? (fun kv => kv.1.key = mk.key) with
      | none =>
        rw [List.find?_eq_none] at hf
        exact absurd (decide_eq_true rfl) (hf _ hm)
      | some kv =>
        have hkv := List.find?_some hf
        simp only [decide_eq_true_eq] at hkv
        have := key_unique h (List.mem_of_find?_eq_some hf) hm hkv
        subst this
        simp only [hs]

theorem scanElems_int (i : Int) : ∀ xs : List MVal, scanElems (.int i) xs none = none
  | [] => rfl
  | x :: xs => by
    rw [scanElems]
    cases x <;> simp [MVal.eqKey, scanElems_int i xs, MVal.loc]

theorem listIndex_nat {α : Type} (xs : List α) (i : Nat) : listIndex xs (i : Int) =
    match xs[i]? with
    | some x => .ok x
    | none => .error (.indexError "list index out of range") := by
  have h : ¬ ((i : Int) < 0) := by omega
  simp only [listIndex, if_neg h, Int.toNat_natCast]
  cases xs[i]? <;> rfl

theorem marked_iff {x : MVal} {s : Span} : x.loc = .ok s ↔ Marked x s := by
  constructor
  · intro h
    cases x with
    | str m t =>
      cases m with
      | none => cases h
      | some m => injection h with h; subst h; exact .str
    | list m xs => injection h with h; subst h; exact .list
    | dict m kvs => injection h with h; subst h; exact .dict
    | _ => cases h
  · intro h; cases h <;> rfl

/-- the prefixes whose mark may be used: the whole path, or a prefix ending in an object key -/
def Usable (t : MVal) (p q : Path) (s : Span) : Prop := CarriesKey t q s ∨ (q = p ∧ Carries t p s)

theorem keyMark_unique {t : MVal} {k : Key} {s s' : Span} (h : MWF t) (h1 : KeyMark t k s) (h2 : KeyMark t k s') :
    s = s' := by
  cases h1 with
  | @key m kvs mk v _ hm hs =>
    rw [MWF, MVal.erase] at h
    have hn := h.1
    rw [eraseDict_keys] at hn
    have a := (scanKeys_keyMark (m := m) hn s).2 (.key hm hs)
    have b := (scanKeys_keyMark (m := m) hn s').2 h2
    rw [a] at b
    injection b

theorem mat_nil {v w : MVal} : MAt v [] w ↔ v = w := by
  constructor
  · intro h; cases h; rfl
  · rintro rfl; exact .here

theorem mat_cons {v w : MVal} {k : Key} {p : Path} : MAt v (k :: p) w ↔ ∃ c, Child v k c ∧ MAt c p w := by
  constructor
  · intro h; cases h with | step hc h => exact ⟨_, hc, h⟩
  · rintro ⟨c, hc, h⟩; exact .step hc h

theorem carries_single {t : MVal} {k : Key} {s : Span} : Carries t [k] s ↔ KeyMark t k s ∨ ItemMark t k s := by
  constructor
  · rintro ⟨q, k', c, hp, ha, h⟩
    cases q with
    | nil =>
      simp only [List.nil_append, List.cons.injEq, and_true] at hp
      subst hp
      rw [mat_nil] at ha
      subst ha
      exact h
    | cons x q => simp at hp
  · intro h; exact ⟨[], k, t, rfl, .here, h⟩

theorem carriesKey_single {t : MVal} {k : Key} {s : Span} : CarriesKey t [k] s ↔ KeyMark t k s := by
  constructor
  · rintro ⟨q, k', c, hp, ha, h⟩
    cases q with
    | nil =>
      simp only [List.nil_append, List.cons.injEq, and_true] at hp
      subst hp
      rw [mat_nil] at ha
      subst ha
      exact h
    | cons x q => simp at hp
  · intro h; exact ⟨[], k, t, rfl, .here, h⟩

theorem carries_cons {t : MVal} {k k' : Key} {p : Path} {s : Span} :
    Carries t (k :: k' :: p) s ↔ ∃ c, Child t k c ∧ Carries c (k' :: p) s := by
  constructor
  · rintro ⟨q, l, c, hp, ha, h⟩
    cases q with
    | nil => simp at hp
    | cons x q =>
      simp only [List.cons_append, List.cons.injEq] at hp
      obtain ⟨rfl, hp⟩ := hp
      obtain ⟨d, hd, ha⟩ := mat_cons.1 ha
      exact ⟨d, hd, q, l, c, hp, ha, h⟩
  · rintro ⟨d, hd, q, l, c, hp, ha, h⟩
    exact ⟨k :: q, l, c, by rw [hp]; rfl, .step hd ha, h⟩

theorem carriesKey_cons {t : MVal} {k k' : Key} {p : Path} {s : Span} :
    CarriesKey t (k :: k' :: p) s ↔ ∃ c, Child t k c ∧ CarriesKey c (k' :: p) s := by
  constructor
  · rintro ⟨q, l, c, hp, ha, h⟩
    cases q with
    | nil => simp at hp
    | cons x q =>
      simp only [List.cons_append, List.cons.injEq] at hp
      obtain ⟨rfl, hp⟩ := hp
      obtain ⟨d, hd, ha⟩ := mat_cons.1 ha
      exact ⟨d, hd, q, l, c, hp, ha, h⟩
  · rintro ⟨d, hd, q, l, c, hp, ha, h⟩
    exact ⟨k :: q, l, c, by rw [hp]; rfl, .step hd ha, h⟩

theorem carriesKey_nil {t : MVal} {s : Span} : ¬ CarriesKey t [] s := by
  rintro ⟨q, k, c, hp, _⟩; simp at hp

theorem carries_nil {t : MVal} {s : Span} : ¬ Carries t [] s := by
  rintro ⟨q, k, c, hp, _⟩; simp at hp

theorem usable_nil {t : MVal} {p : Path} {s : Span} : ¬ Usable t p [] s := by
  rintro (h | ⟨rfl, h⟩)
  · exact carriesKey_nil h
  · exact carries_nil h

theorem usable_cons {t : MVal} {k k' l : Key} {p q : Path} {s : Span} :
    Usable t (k :: k' :: p) (k :: l :: q) s ↔ ∃ c, Child t k c ∧ Usable c (k' :: p) (l :: q) s := by
  unfold Usable
  rw [carriesKey_cons, carries_cons]
  constructor
  · rintro (⟨c, hc, h⟩ | ⟨heq, c, hc, h⟩)
    · exact ⟨c, hc, .inl h⟩
    · exact ⟨c, hc, .inr ⟨(List.cons.inj heq).2, h⟩⟩
  · rintro ⟨c, hc, h | ⟨heq, h⟩⟩
    · exact .inl ⟨c, hc, h⟩
    · exact .inr ⟨by rw [heq], c, hc, h⟩

/-- a path of one element -/
theorem deepest_single {t : MVal} {k : Key} {s : Span} :
    Deepest (Usable t [k]) [k] s ↔ KeyMark t k s ∨ ItemMark t k s := by
  constructor
  · rintro ⟨q, ⟨r, hr⟩, hu, _⟩
    rcases hu with hu | ⟨rfl, hu⟩
    · cases q with
      | nil => exact absurd hu carriesKey_nil
      | cons x q =>
        simp only [List.cons_append, List.cons.injEq, List.append_eq_nil_iff] at hr
        obtain ⟨rfl, rfl, _⟩ := hr
        exact .inl (carriesKey_single.1 hu)
    · exact carries_single.1 hu
  · intro h
    exact ⟨[k], List.prefix_rfl, .inr ⟨rfl, carries_single.2 h⟩, fun q' s' hq' _ => hq'.length_le⟩

/-- a longer path: deeper first, else the key here -/
theorem deepest_cons {t : MVal} {k k' : Key} {p : Path} {s : Span}
    (huniq : ∀ c c', Child t k c → Child t k c' → c = c') :
    Deepest (Usable t (k :: k' :: p)) (k :: k' :: p) s ↔
      (∃ c, Child t k c ∧ Deepest (Usable c (k' :: p)) (k' :: p) s) ∨
      ((∀ c, Child t k c → ∀ s', ¬ Deepest (Usable c (k' :: p)) (k' :: p) s') ∧ KeyMark t k s) := by
  -- some usable prefix gives a deepest one
  have ex : ∀ c : MVal, ∀ n, ∀ q s', q <+: (k' :: p) → Usable c (k' :: p) q s' →
      (k' :: p).length - q.length ≤ n → ∃ s'', Deepest (Usable c (k' :: p)) (k' :: p) s'' := by
    intro c n
    induction n with
    | zero =>
      intro q s' hq hu hn
      have := hq.length_le
      refine ⟨s', q, hq, hu, fun q' s'' hq' _ => ?_⟩
      have := hq'.length_le
      omega
    | succ n ih =>
      intro q s' hq hu hn
      by_cases hmax : ∀ q' s'', q' <+: (k' :: p) → Usable c (k' :: p) q' s'' → q'.length ≤ q.length
      · exact ⟨s', q, hq, hu, hmax⟩
      · simp only [Classical.not_forall] at hmax
        obtain ⟨q', s'', hq', hu', hlt⟩ := hmax
        have := hq'.length_le
        exact ih q' s'' hq' hu' (by omega)
  constructor
  · rintro ⟨q, hq, hu, hmax⟩
    cases q with
    | nil => exact absurd hu usable_nil
    | cons x q =>
      obtain ⟨r, hr⟩ := hq
      simp only [List.cons_append, List.cons.injEq] at hr
      obtain ⟨rfl, hr⟩ := hr
      cases q with
      | nil =>
        right
        refine ⟨?_, ?_⟩
        · rintro c hc s' ⟨q', hq', hu', _⟩
          cases q' with
          | nil => exact usable_nil hu'
          | cons y q' =>
            have := hmax (x :: y :: q') s' (List.cons_prefix_cons.2 ⟨rfl, hq'⟩) (usable_cons.2 ⟨c, hc, hu'⟩)
            simp at this
        · rcases hu with hu | ⟨heq, _⟩
          · exact carriesKey_single.1 hu
          · simp at heq
      | cons y q =>
        left
        obtain ⟨c, hc, hu⟩ := usable_cons.1 hu
        refine ⟨c, hc, y :: q, ⟨r, hr⟩, hu, ?_⟩
        intro q' s' hq' hu'
        cases q' with
        | nil => simp
        | cons z q' =>
          have := hmax (x :: z :: q') s' (List.cons_prefix_cons.2 ⟨rfl, hq'⟩) (usable_cons.2 ⟨c, hc, hu'⟩)
          simpa using this
  · rintro (⟨c, hc, q, hq, hu, hmax⟩ | ⟨hno, hk⟩)
    · cases q with
      | nil => exact absurd hu usable_nil
      | cons y q =>
        refine ⟨k :: y :: q, List.cons_prefix_cons.2 ⟨rfl, hq⟩, usable_cons.2 ⟨c, hc, hu⟩, ?_⟩
        intro q' s' hq' hu'
        cases q' with
        | nil => simp
        | cons x q' =>
          obtain ⟨rfl, hq2⟩ := List.cons_prefix_cons.1 hq'
          cases q' with
          | nil => simp
          | cons z q' =>
            obtain ⟨c', hc', hu'⟩ := usable_cons.1 hu'
            have := huniq c c' hc hc'
            subst this
            have := hmax (z :: q') s' hq2 hu'
            simpa using this
    · refine ⟨[k], List.cons_prefix_cons.2 ⟨rfl, List.nil_prefix⟩, .inl (carriesKey_single.2 hk), ?_⟩
      intro q' s' hq' hu'
      cases q' with
      | nil => simp
      | cons x q' =>
        obtain ⟨rfl, hq2⟩ := List.cons_prefix_cons.1 hq'
        cases q' with
        | nil => simp
        | cons z q' =>
          obtain ⟨c, hc, hu'⟩ := usable_cons.1 hu'
          obtain ⟨s'', hd⟩ := ex c _ _ _ hq2 hu' (Nat.le_refl _)
          exact absurd hd (hno c hc s'')

theorem child_unique {t c c' : MVal} {k : Key} (h : MWF t) (h1 : Child t k c) (h2 : Child t k c') : c = c' := by
  cases h1 with
  | @key m kvs mk v hm =>
    generalize hk : mk.key = k' at h2
    generalize hd : MVal.dict m kvs = d at h2
    cases h2 with
    | key hm' =>
      injection hd with _ hd
      subst hd
      rw [MWF, MVal.erase] at h
      have hn := h.1
      rw [eraseDict_keys] at hn
      have := key_unique hn hm hm' hk
      injection this
    | idx _ => cases hd
  | @idx m xs i x hx =>
    generalize hk : Key.int i = k' at h2
    generalize hd : MVal.list m xs = d at h2
    cases h2 with
    | key hm' => cases hd
    | idx hx' =>
      injection hd with _ hd
      injection hk with hk
      subst hd
      have := Int.ofNat.inj hk
      subst this
      rw [hx] at hx'
      injection hx'

theorem follows_child {t c : MVal} {k : Key} {p : Path} (h : Follows t (k :: p)) (hc : Child t k c) :
    Follows c p := by
  intro q l r d hp ha
  exact h (k :: q) l r d (by rw [hp]; rfl) (.step hc ha)

/-- The main lemma: what `get_location_yaml` returns. -/
theorem getLocation_spec : ∀ (p : Path) (t : MVal), p ≠ [] → MWF t → Follows t p →
    (∃ r, getLocation t p = .ok r ∧ ∀ s, r = some s ↔ Deepest (Usable t p) p s) ∨
    (∃ e, getLocation t p = .error (.typeError e) ∧ ∀ s, ¬ Deepest (Usable t p) p s)
  | [], _, h, _, _ => absurd rfl h
  | [k], t, _, hw, hf => by
    have hfk := hf [] k [] t rfl .here
    simp only [deepest_single]
    cases t with
    | dict m kvs =>
      left
      refine ⟨scanKeys k (kvs.map Prod.fst) none, ?_, ?_⟩
      · cases k <;> rfl
      · intro s
        rw [MWF, MVal.erase] at hw
        have hn := hw.1
        rw [eraseDict_keys] at hn
        rw [scanKeys_keyMark (m := m) hn]
        constructor
        · exact .inl
        · rintro (h | h)
          · exact h
          · cases h
    | list m xs =>
      left
      simp only at hfk
      obtain ⟨i, rfl, hi⟩ := hfk
      have hx : xs[i]? = some xs[i] := List.getElem?_eq_getElem hi
      have hl : getLocation (.list m xs) [.int i] =
          match (xs[i]).loc with | .ok s => .ok (some s) | .error _ => .ok none := by
        rw [getLocation]
        simp only [listIndex_nat, hx]
        cases (xs[i]).loc <;> rfl
      rw [hl]
      cases hm : (xs[i]).loc with
      | ok s' =>
        refine ⟨some s', rfl, ?_⟩
        intro s
        have hmk := marked_iff.1 hm
        constructor
        · intro h; injection h with h; subst h; exact .inr (.item hx hmk)
        · rintro (h | h)
          · cases h
          · generalize hk : Key.int i = k' at h
            cases h with
            | item hx' hmk' =>
              injection hk with hk
              have := Int.ofNat.inj hk
              subst this
              rw [hx] at hx'
              injection hx' with hx'
              subst hx'
              rw [marked_iff.2 hmk'] at hm
              injection hm with hm
              rw [hm]
      | error e =>
        refine ⟨none, rfl, ?_⟩
        intro s
        constructor
        · intro h; cases h
        · rintro (h | h)
          · cases h
          · generalize hk : Key.int i = k' at h
            cases h with
            | item hx' hmk' =>
              injection hk with hk
              have := Int.ofNat.inj hk
              subst this
              rw [hx] at hx'
              injection hx' with hx'
              subst hx'
              rw [marked_iff.2 hmk'] at hm
              cases hm
    | str m s' =>
      left
      refine ⟨none, by cases k <;> rfl, ?_⟩
      intro s
      constructor
      · intro h; cases h
      · rintro (h | h) <;> cases h
    | none | bool _ | int _ | flt _ =>
      right
      refine ⟨"object is not iterable", by cases k <;> rfl, ?_⟩
      rintro s (h | h) <;> cases h
  | k :: k' :: p, t, _, hw, hf => by
    have hfk := hf [] k (k' :: p) t rfl .here
    simp only [deepest_cons (fun c c' => child_unique hw)]
    have nochild : ∀ {t : MVal}, (∀ c, ¬ Child t k c) → ∀ s,
        ((∃ c, Child t k c ∧ Deepest (Usable c (k' :: p)) (k' :: p) s) ∨
        ((∀ c, Child t k c → ∀ s', ¬ Deepest (Usable c (k' :: p)) (k' :: p) s') ∧ KeyMark t k s)) ↔
        KeyMark t k s := by
      intro t hno s
      constructor
      · rintro (⟨c, hc, _⟩ | ⟨_, h⟩)
        · exact absurd hc (hno c)
        · exact h
      · intro h; exact .inr ⟨fun c hc => absurd hc (hno c), h⟩
    cases t with
    | dict m kvs =>
      left
      rw [getLocation]
      have hn : (kvs.map (fun kv => kv.1.key)).Nodup := by
        rw [MWF, MVal.erase] at hw
        have hn := hw.1
        rwa [eraseDict_keys] at hn
      cases hfd : MVal.find k kvs with
      | none =>
        have hsub : (MVal.dict m kvs).subscript k = .error (.keyError "") := by
          simp [MVal.subscript, hfd]
        rw [hsub]
        refine ⟨scanKeys k (kvs.map Prod.fst) none, rfl, ?_⟩
        intro s
        rw [nochild, scanKeys_keyMark (m := m) hn]
        intro c hc
        generalize hk : k = k'' at hc
        cases hc with
        | key hm => exact find_none hfd _ _ hm hk.symm
      | some c =>
        have hsub : (MVal.dict m kvs).subscript k = .ok c := by simp [MVal.subscript, hfd]
        obtain ⟨mk, hm, hmk⟩ := find_mem hfd
        have hc : Child (.dict m kvs) k c := by subst hmk; exact .key hm
        rw [hsub]
        simp only
        have hdec : ∀ s, ((∃ c, Child (MVal.dict m kvs) k c ∧ Deepest (Usable c (k' :: p)) (k' :: p) s) ∨
            ((∀ c, Child (MVal.dict m kvs) k c → ∀ s', ¬ Deepest (Usable c (k' :: p)) (k' :: p) s') ∧
              KeyMark (.dict m kvs) k s)) ↔
            Deepest (Usable c (k' :: p)) (k' :: p) s ∨
              ((∀ s', ¬ Deepest (Usable c (k' :: p)) (k' :: p) s') ∧ KeyMark (.dict m kvs) k s) := by
          intro s
          constructor
          · rintro (⟨c', hc', h⟩ | ⟨h, hk⟩)
            · have := child_unique hw hc hc'
              subst this
              exact .inl h
            · exact .inr ⟨h c hc, hk⟩
          · rintro (h | ⟨h, hk⟩)
            · exact .inl ⟨c, hc, h⟩
            · refine .inr ⟨?_, hk⟩
              intro c' hc'
              have := child_unique hw hc hc'
              subst this
              exact h
        simp only [hdec]
        rcases getLocation_spec (k' :: p) c (by simp) (mwf_child hw hc) (follows_child hf hc) with
          ⟨r, hr, hrs⟩ | ⟨e, he, hno⟩
        · rw [hr]
          cases r with
          | some s0 =>
            refine ⟨some s0, rfl, ?_⟩
            intro s
            rw [hrs s]
            constructor
            · exact .inl
            · rintro (h | ⟨h, _⟩)
              · exact h
              · exact absurd ((hrs s0).1 rfl) (h s0)
          | none =>
            refine ⟨scanKeys k (kvs.map Prod.fst) none, rfl, ?_⟩
            intro s
            rw [scanKeys_keyMark (m := m) hn]
            constructor
            · intro h; exact .inr ⟨fun s' hs' => (by cases (hrs s').2 hs'), h⟩
            · rintro (h | ⟨_, h⟩)
              · cases (hrs s).2 h
              · exact h
        · rw [he]
          refine ⟨scanKeys k (kvs.map Prod.fst) none, rfl, ?_⟩
          intro s
          rw [scanKeys_keyMark (m := m) hn]
          constructor
          · intro h; exact .inr ⟨hno, h⟩
          · rintro (h | ⟨_, h⟩)
            · exact absurd h (hno s)
            · exact h
    | list m xs =>
      left
      simp only at hfk
      obtain ⟨i, rfl, hi⟩ := hfk
      have hx : xs[i]? = some xs[i] := List.getElem?_eq_getElem hi
      have hc : Child (.list m xs) (.int i) xs[i] := .idx hx
      have hsub : (MVal.list m xs).subscript (.int i) = .ok xs[i] := by
        simp only [MVal.subscript, listIndex_nat, hx]
      rw [getLocation, hsub]
      simp only
      have hscan : scanText (.list m xs) (.int i) = .ok none := by
        rw [scanText, scanElems_int]
      have hdec : ∀ s, ((∃ c, Child (MVal.list m xs) (.int i) c ∧ Deepest (Usable c (k' :: p)) (k' :: p) s) ∨
          ((∀ c, Child (MVal.list m xs) (.int i) c → ∀ s', ¬ Deepest (Usable c (k' :: p)) (k' :: p) s') ∧
            KeyMark (.list m xs) (.int i) s)) ↔ Deepest (Usable xs[i] (k' :: p)) (k' :: p) s := by
        intro s
        constructor
        · rintro (⟨c', hc', h⟩ | ⟨_, h⟩)
          · have := child_unique hw hc hc'
            rw [this]
            exact h
          · cases h
        · intro h; exact .inl ⟨_, hc, h⟩
      simp only [hdec]
      rcases getLocation_spec (k' :: p) xs[i] (by simp) (mwf_child hw hc) (follows_child hf hc) with
        ⟨r, hr, hrs⟩ | ⟨e, he, hno⟩
      · rw [hr]
        cases r with
        | some s0 => exact ⟨some s0, rfl, hrs⟩
        | none => exact ⟨none, hscan, hrs⟩
      · rw [he]
        refine ⟨none, hscan, fun s => ⟨fun h => (by cases h), fun h => absurd h (hno s)⟩⟩
    | str m s' =>
      left
      simp only at hfk
      obtain ⟨s0, rfl⟩ := hfk
      refine ⟨none, by rw [getLocation]; rfl, ?_⟩
      intro s
      rw [nochild (by intro c hc; cases hc)]
      constructor
      · intro h; cases h
      · intro h; cases h
    | none | bool _ | int _ | flt _ =>
      right
      refine ⟨"object is not iterable", by rw [getLocation]; cases k <;> rfl, ?_⟩
      intro s
      rw [nochild (by intro c hc; cases hc)]
      intro h; cases h

theorem follows_of_mat : ∀ {p : Path} {t v : MVal}, MWF t → MAt t p v → Follows t p
  | p, t, v, hw, h => by
    intro q k r c hp ha
    subst hp
    induction ha generalizing v with
    | here =>
      obtain ⟨d, hd, _⟩ := mat_cons.1 h
      cases hd with
      | key hm => trivial
      | @idx m xs i x hx =>
        exact ⟨i, rfl, (List.getElem?_eq_some_iff.1 hx).1⟩
    | step hc ha ih =>
      obtain ⟨d, hd, h⟩ := mat_cons.1 h
      have := child_unique hw hc hd
      subst this
      exact ih _ (mwf_child hw hc) h

end CfnLint
