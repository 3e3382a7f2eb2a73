import Verif.Spec.Permissions
import Verif.Props.IamPolicy
import Verif.Lemmas.Split
/-
C102: the actions of policies.
-/
namespace CfnLint
open Spec

/-- the documents of a resource: those of four properties, and those of the elements of the list `Policies` -/
def PermDoc (kvs : List (Key × Val)) (p : Path) (u : Val) : Prop :=
  (∃ k ∈ ["PolicyDocument", "KeyPolicy", "AccessPolicies", "RepositoryPolicyText"], ∃ v q, (Key.str k, v) ∈ kvs ∧ PropValue v q u ∧ NoCall u ∧ p = .str k :: q) ∨
    ∃ xs i es v q, (Key.str "Policies", Val.list xs) ∈ kvs ∧ xs[i]? = some (.dict es) ∧ (Key.str "PolicyDocument", v) ∈ es ∧ PropValue v q u ∧ NoCall u ∧
      p = .str "Policies" :: .int (i : Nat) :: .str "PolicyDocument" :: q

/-- the actions of a resource, with the paths of their statements -/
def ResourceAction (decode : String → Option Val) (kvs : List (Key × Val)) (a : String) (p : Path) : Prop :=
  ∃ d u es r, PermDoc kvs d u ∧ GivesDoc decode u es ∧ DocAction (.dict es) a r ∧ p = d ++ r

/-! ### the table of services -/

theorem actionsOf_addService (m : ServiceMap) (s t : String) (as : List String) :
    actionsOf (addService m s as) t = if t = s then some ((actionsOf m s).getD [] ++ as) else actionsOf m t := by
  unfold addService
  split
  · rename_i hs
    have key : ∀ m : ServiceMap, actionsOf (m.map (fun e => if e.1 = s then (e.1, e.2 ++ as) else e)) t =
        (actionsOf m t).map (fun l => if t = s then l ++ as else l) := by
      intro m
      induction m with
      | nil => rfl
      | cons e m ih =>
        unfold actionsOf at ih ⊢
        rw [List.map_cons, List.find?_cons, List.find?_cons]
        by_cases he : e.1 = t
        · subst he
          by_cases h2 : e.1 = s <;> simp [h2]
        · have h1 : ((if e.1 = s then (e.1, e.2 ++ as) else e).1 == t) = false := by
            split <;> simpa using he
          rw [h1, beq_eq_false_iff_ne.2 he]
          exact ih
    rw [key]
    split
    · rename_i h
      subst h
      obtain ⟨l, hl⟩ := Option.isSome_iff_exists.1 hs
      simp [hl]
    · simp
  · rename_i hs
    have hn : actionsOf m s = none := by simpa using hs
    have h3 : actionsOf (m ++ [(s, as)]) t = (actionsOf m t).or (if s = t then some as else none) := by
      unfold actionsOf
      rw [List.find?_append, Option.map_or]
      congr 1
      by_cases h : s = t <;> simp [h]
    rw [h3]
    split
    · rename_i h
      subst h
      simp [hn]
    · rename_i h
      rw [if_neg (fun e => h e.symm), Option.or_none]

/-- the table holds what has been read -/
def MapOf (m : ServiceMap) (raw : List (String × List String)) : Prop :=
  ∀ s, ((actionsOf m s).isSome ↔ ∃ e ∈ raw, lower e.1 = s) ∧
    ∀ x, (x ∈ (actionsOf m s).getD [] ↔ ∃ e ∈ raw, lower e.1 = s ∧ ∃ y ∈ e.2, lower y = x)

theorem mapOf_step {m : ServiceMap} {raw : List (String × List String)} (h : MapOf m raw) (e : String × List String) :
    MapOf (addService m (lower e.1) (e.2.map lower)) (raw ++ [e]) := by
  intro s
  rw [actionsOf_addService]
  obtain ⟨h1, h2⟩ := h s
  constructor
  · split
    · rename_i hs
      simp [hs]
    · rename_i hs
      rw [h1]
      constructor
      · rintro ⟨e', a, b⟩
        exact ⟨e', List.mem_append_left _ a, b⟩
      · rintro ⟨e', a, b⟩
        rcases List.mem_append.1 a with a | a
        · exact ⟨e', a, b⟩
        · cases List.mem_singleton.1 a
          exact absurd b.symm hs
  · intro x
    split
    · rename_i hs
      subst hs
      rw [Option.getD_some, List.mem_append, h2, List.mem_map]
      constructor
      · rintro (⟨e', a, b⟩ | ⟨y, a, b⟩)
        · exact ⟨e', List.mem_append_left _ a, b⟩
        · exact ⟨e, by simp, rfl, y, a, b⟩
      · rintro ⟨e', a, b, c⟩
        rcases List.mem_append.1 a with a | a
        · exact .inl ⟨e', a, b, c⟩
        · cases List.mem_singleton.1 a
          exact .inr c
    · rename_i hs
      rw [h2]
      constructor
      · rintro ⟨e', a, b⟩
        exact ⟨e', List.mem_append_left _ a, b⟩
      · rintro ⟨e', a, b, c⟩
        rcases List.mem_append.1 a with a | a
        · exact ⟨e', a, b, c⟩
        · cases List.mem_singleton.1 a
          exact absurd b.symm hs

theorem mapOf_load (raw : List (String × List String)) : MapOf (loadServiceMap raw) raw := by
  have go : ∀ (raw seen : List (String × List String)) (m : ServiceMap), MapOf m seen →
      MapOf (raw.foldl (fun m e => addService m (lower e.1) (e.2.map lower)) m) (seen ++ raw) := by
    intro raw
    induction raw with
    | nil => intro seen m h; simpa using h
    | cons e raw ih =>
      intro seen m h
      have := ih (seen ++ [e]) _ (mapOf_step h e)
      rw [List.append_assoc] at this
      exact this
  exact go raw [] [] (fun s => by simp [actionsOf])

/-- C102: the table of the rule has the services of the file, and the actions of all entries of a service; letters are small. -/
theorem C102_table (raw : List (String × List String)) (s : String) :
    (¬ KnownService raw s ∧ actionsOf (loadServiceMap raw) (lower s) = none) ∨
      KnownService raw s ∧ ∃ l, actionsOf (loadServiceMap raw) (lower s) = some l ∧ ∀ x, x ∈ l ↔ HasAction raw s x := by
  obtain ⟨h1, h2⟩ := mapOf_load raw (lower s)
  cases h : actionsOf (loadServiceMap raw) (lower s) with
  | none =>
    rw [h] at h1
    exact .inl ⟨fun hk => (by simpa using h1.2 hk), rfl⟩
  | some l =>
    rw [h] at h1 h2
    exact .inr ⟨h1.1 rfl, l, rfl, h2⟩

example : HasAction [("elasticloadbalancing", ["AddTags"]), ("ElasticLoadBalancing", ["SetSubnets"])] "elasticloadbalancing" "setsubnets" :=
  ⟨("ElasticLoadBalancing", ["SetSubnets"]), by simp, by decide +kernel, "SetSubnets", by simp, by decide +kernel⟩

/-! ### patterns -/

theorem wild_append {w r t : List Char} (h1 : '*' ∉ w) (h2 : '?' ∉ w) : Wild (w ++ r) t ↔ ∃ t', t = w ++ t' ∧ Wild r t' := by
  induction w generalizing t with
  | nil => simp
  | cons c w ih =>
    simp only [List.mem_cons, not_or] at h1 h2
    rw [List.cons_append]
    constructor
    · intro h
      cases h with
      | star s h => exact absurd rfl h1.1
      | any h => exact absurd rfl h2.1
      | char _ _ h =>
        obtain ⟨t', rfl, h'⟩ := (ih h1.2 h2.2).1 h
        exact ⟨t', rfl, h'⟩
    · rintro ⟨t', rfl, h'⟩
      exact .char (fun e => h1.1 e.symm) (fun e => h2.1 e.symm) ((ih h1.2 h2.2).2 ⟨t', rfl, h'⟩)

theorem wild_nil {t : List Char} : Wild [] t ↔ t = [] := by
  constructor
  · intro h; cases h; rfl
  · rintro rfl; exact .nil

theorem wild_plain {w t : List Char} (h1 : '*' ∉ w) (h2 : '?' ∉ w) : Wild w t ↔ w = t := by
  have := wild_append (r := []) (t := t) h1 h2
  rw [List.append_nil] at this
  rw [this]
  constructor
  · rintro ⟨t', rfl, h⟩
    cases wild_nil.1 h
    simp
  · rintro rfl
    exact ⟨[], by simp, .nil⟩

theorem wild_star {p t : List Char} : Wild ('*' :: p) t ↔ ∃ s t', t = s ++ t' ∧ Wild p t' := by
  constructor
  · intro h
    generalize hx : '*' :: p = x at h
    cases h with
    | nil => cases hx
    | star s h => cases hx; exact ⟨s, _, rfl, h⟩
    | any h => exact absurd (List.cons.inj hx).1 (by decide)
    | char a b h => exact absurd (List.cons.inj hx).1.symm a
  · rintro ⟨s, t', rfl, h⟩
    exact .star s h

theorem someContains_iff {actions : List String} {w : List Char} : someContains actions w = true ↔ ∃ a ∈ actions, w <:+: a.toList := by
  simp [someContains]

theorem endsWith_star {p : String} : endsWith p "*" = true ↔ p.toList.getLast? = some '*' := by
  unfold endsWith
  rw [List.isSuffixOf_iff_suffix, List.getLast?_eq_some_iff]
  constructor
  · rintro ⟨l, h⟩
    exact ⟨l, h.symm⟩
  · rintro ⟨l, h⟩
    exact ⟨l, h.symm⟩

theorem startsWith_star {p : String} : startsWith p "*" = true ↔ p.toList.head? = some '*' := by
  unfold startsWith
  rw [List.isPrefixOf_iff_prefix, List.head?_eq_some_iff]
  constructor
  · rintro ⟨l, h⟩
    exact ⟨l, h.symm⟩
  · rintro ⟨l, h⟩
    exact ⟨l, h.symm⟩

/-- a permission that matches an action is accepted, if it is simple -/
theorem permissionOk_of_match {actions : List String} {p x : String} (hx : x ∈ actions) (hm : Wild p.toList x.toList) (hq : '?' ∉ p.toList)
    (hs : '*' ∉ p.toList ∨ p.toList.head? = some '*' ∨ p.toList.getLast? = some '*') : permissionOk actions p = true := by
  unfold permissionOk
  split
  · rfl
  split
  · obtain ⟨w, tl, h1, h2, h3⟩ := splitOn_first '*' p.toList
    rw [h1]
    refine someContains_iff.2 ⟨x, hx, ?_⟩
    show w <:+: _
    obtain ⟨r, hr⟩ : ∃ r, p.toList = w ++ r := by
      rcases h3 with h3 | ⟨r, h3⟩
      · exact ⟨[], by simpa using h3⟩
      · exact ⟨_, h3⟩
    rw [hr] at hm hq
    obtain ⟨t', e, -⟩ := (wild_append h2 (fun h => hq (List.mem_append_left _ h))).1 hm
    exact ⟨[], t', by rw [e]; rfl⟩
  split
  · rename_i hst
    obtain ⟨l, hl⟩ := List.head?_eq_some_iff.1 (startsWith_star.1 hst)
    obtain ⟨w, tl, h1, h2, h3⟩ := splitOn_first '*' l
    rw [hl, splitOn, if_pos rfl, h1]
    refine someContains_iff.2 ⟨x, hx, ?_⟩
    show w <:+: _
    obtain ⟨r, hr⟩ : ∃ r, l = w ++ r := by
      rcases h3 with h3 | ⟨r, h3⟩
      · exact ⟨[], by simpa using h3⟩
      · exact ⟨_, h3⟩
    rw [hl] at hm hq
    obtain ⟨s, t, e, hm⟩ := wild_star.1 hm
    rw [hr] at hm hq
    obtain ⟨t', e', -⟩ := (wild_append h2 (fun h => hq (List.mem_cons_of_mem _ (List.mem_append_left _ h)))).1 hm
    exact ⟨s, t', by rw [e, e', List.append_assoc]⟩
  · rename_i h1 h2 h3
    rw [endsWith_star] at h2
    rw [startsWith_star] at h3
    have hn : '*' ∉ p.toList := by tauto
    have : p = x := String.toList_injective ((wild_plain hn hq).1 hm)
    rw [this]
    exact decide_eq_true hx

/-- a permission without wildcards is accepted if and only if it is one of the actions -/
theorem permissionOk_plain {actions : List String} {p : String} (h1 : '*' ∉ p.toList) : permissionOk actions p = true ↔ p ∈ actions := by
  unfold permissionOk
  rw [if_neg (by rintro rfl; exact h1 (by decide)), if_neg (by rw [endsWith_star]; exact fun h => h1 (List.mem_of_getLast? h)),
    if_neg (by rw [startsWith_star]; exact fun h => h1 (List.mem_of_head? h)), decide_eq_true_eq]

/-- C102: text followed by a star is accepted if and only if an action contains the text, anywhere. -/
theorem C102_trailing (actions : List String) (w : String) (hw : '*' ∉ w.toList) :
    permissionOk actions (w ++ "*") = true ↔ w = "" ∨ ∃ a ∈ actions, w.toList <:+: a.toList := by
  have e : (w ++ "*").toList = w.toList ++ ['*'] := by simp
  unfold permissionOk
  by_cases h0 : w = ""
  · subst h0
    simp
  · rw [if_neg (fun h => h0 (by
      have := congrArg String.toList h
      rw [e] at this
      exact String.toList_injective (by simpa using this))), if_pos (by rw [endsWith_star, e, List.getLast?_concat])]
    have : (splitOn '*' (w ++ "*").toList)[0]?.getD [] = w.toList := by
      rw [e]
      obtain ⟨v, tl, h1, h2, h3⟩ := splitOn_first '*' (w.toList ++ ['*'])
      rw [h1]
      show v = _
      rcases h3 with h3 | ⟨r, h3⟩
      · exact absurd (h3 ▸ List.mem_append_right _ (List.mem_singleton_self _)) h2
      · rcases List.append_eq_append_iff.1 h3 with ⟨a', h4, h5⟩ | ⟨a', h4, h5⟩
        · cases a' with
          | nil => simpa using h4
          | cons x a' =>
            injection h5 with h5 h6
            subst h5
            exact absurd (h4 ▸ List.mem_append_right _ List.mem_cons_self) h2
        · cases a' with
          | nil => simpa using h4.symm
          | cons x a' =>
            injection h5 with h5 h6
            subst h5
            exact absurd (h4 ▸ List.mem_append_right _ List.mem_cons_self) hw
    rw [this, someContains_iff]
    simp [h0]

/-- C102: text after a star is accepted if and only if an action contains the text, anywhere. -/
theorem C102_leading (actions : List String) (w : String) (hw : '*' ∉ w.toList) :
    permissionOk actions ("*" ++ w) = true ↔ w = "" ∨ ∃ a ∈ actions, w.toList <:+: a.toList := by
  have e : ("*" ++ w).toList = '*' :: w.toList := by simp
  by_cases h0 : w = ""
  · subst h0
    simp [permissionOk]
  · have h1 : w.toList ≠ [] := fun h => h0 (String.toList_injective h)
    unfold permissionOk
    rw [if_neg (fun h => h1 (by
      have := congrArg String.toList h
      rw [e] at this
      simpa using this)), if_neg (by
        rw [endsWith_star, e, List.getLast?_cons_of_ne_nil h1]
        exact fun h => hw (List.mem_of_getLast? h)), if_pos (by rw [startsWith_star, e]; rfl)]
    have : (splitOn '*' ("*" ++ w).toList)[1]?.getD [] = w.toList := by
      rw [e, splitOn, if_pos rfl]
      obtain ⟨v, tl, h1, h2, h3⟩ := splitOn_first '*' w.toList
      rw [h1]
      show v = _
      rcases h3 with h3 | ⟨r, h3⟩
      · exact h3.symm
      · exact absurd (h3 ▸ List.mem_append_right _ List.mem_cons_self) hw
    rw [this, someContains_iff]
    simp [h0]

/-! ### an action -/

theorem splitColon_iff {l s p : List Char} : splitColon l = some (s, p) ↔ l = s ++ ':' :: p ∧ ':' ∉ s := by
  induction l generalizing s with
  | nil => simp [splitColon]
  | cons c l ih =>
    by_cases hc : c = ':'
    · subst hc
      rw [splitColon]
      constructor
      · intro h
        cases h
        exact ⟨rfl, by simp⟩
      · rintro ⟨h1, h2⟩
        cases s with
        | nil => cases h1; rfl
        | cons x s =>
          injection h1 with h1 h3
          subst h1
          exact absurd List.mem_cons_self h2
    · rw [splitColon.eq_3 _ _ (fun e => hc e)]
      simp only [Option.map_eq_some_iff, Prod.mk.injEq, Prod.exists]
      constructor
      · rintro ⟨a, b, h, rfl, rfl⟩
        obtain ⟨h1, h2⟩ := ih.1 h
        exact ⟨by rw [h1]; rfl, by simp [h2, Ne.symm hc]⟩
      · rintro ⟨h1, h2⟩
        cases s with
        | nil => injection h1 with h1; exact absurd h1 hc
        | cons x s =>
          injection h1 with h1 h3
          subst h1
          exact ⟨s, p, ih.2 ⟨h3, fun h => h2 (List.mem_cons_of_mem _ h)⟩, rfl, rfl⟩

theorem splitColon_none {l : List Char} : splitColon l = none ↔ ':' ∉ l := by
  constructor
  · intro h hm
    obtain ⟨s, t, e, hn⟩ := List.append_of_mem hm |> fun ⟨s, t, e⟩ => (⟨l.takeWhile (· ≠ ':'), (l.dropWhile (· ≠ ':')).tail, by
      have hne : l.dropWhile (· ≠ ':') ≠ [] := by
        intro h0
        rw [List.dropWhile_eq_nil_iff] at h0
        simpa using h0 ':' hm
      have hh := List.head_dropWhile_not (p := (· ≠ ':')) (l := l) hne
      conv_lhs => rw [← List.takeWhile_append_dropWhile (p := (· ≠ ':')) (l := l)]
      congr 1
      rw [← List.cons_head_tail hne]
      congr 1
      simpa using hh, by
      intro hc
      simpa using List.mem_takeWhile_imp hc⟩ : ∃ s t, l = s ++ ':' :: t ∧ ':' ∉ s)
    rw [splitColon_iff.2 ⟨e, hn⟩] at h
    cases h
  · intro h
    cases hs : splitColon l with
    | none => rfl
    | some sp =>
      obtain ⟨s, p⟩ := sp
      rw [(splitColon_iff.1 hs).1] at h
      simp at h

theorem actionParts_split {a s p : String} : ActionParts a s p ↔ splitColon a.toList = some (s.toList, p.toList) := by
  rw [splitColon_iff]
  unfold ActionParts
  constructor
  · rintro ⟨rfl, h⟩
    exact ⟨by simp, h⟩
  · rintro ⟨h1, h2⟩
    exact ⟨String.toList_injective (by simpa using h1), h2⟩

theorem actionParts_unique {a s p s' p' : String} (h : ActionParts a s p) (h' : ActionParts a s' p') : s = s' ∧ p = p' := by
  rw [actionParts_split] at h h'
  rw [h] at h'
  injection h' with h'
  injection h' with h1 h2
  exact ⟨String.toList_injective h1, String.toList_injective h2⟩

theorem actionParts_ne_star {a s p : String} (h : ActionParts a s p) : a ≠ "*" := by
  rintro rfl
  rw [actionParts_split] at h
  have h0 : splitColon "*".toList = none := by decide +kernel
  rw [h0] at h
  cases h

theorem actionParts_of_colon {a : String} (h : ':' ∈ a.toList) : ∃ s p, ActionParts a s p := by
  cases hs : splitColon a.toList with
  | none => exact absurd h (splitColon_none.1 hs)
  | some sp =>
    refine ⟨String.ofList sp.1, String.ofList sp.2, actionParts_split.2 ?_⟩
    rw [hs]
    simp

/-- the message for an action, if there is one -/
def permReport (raw : List (String × List String)) (a : String) (f : PermFault) : Prop :=
  ∃ s p, ActionParts a s p ∧ (¬ KnownService raw s ∧ f = .service s ∨
    KnownService raw s ∧ permissionOk ((actionsOf (loadServiceMap raw) (lower s)).getD []) (lower p) = false ∧ f = .permission p s)

theorem checkPermission_spec (raw : List (String × List String)) {a : String} (h : a = "*" ∨ ':' ∈ a.toList) (path : Path) :
    ∃ l, checkPermission (loadServiceMap raw) (.str a) path = .ok l ∧ ∀ f p, (f, p) ∈ l ↔ permReport raw a f ∧ p = path := by
  unfold checkPermission
  simp only
  by_cases ha : a = "*"
  · rw [if_pos ha]
    refine ⟨[], rfl, fun f p => ?_⟩
    simp only [List.not_mem_nil, false_iff]
    rintro ⟨⟨s, p, hp, -⟩, -⟩
    exact actionParts_ne_star hp ha
  · obtain ⟨s, p, hp⟩ := actionParts_of_colon (h.resolve_left ha)
    rw [if_neg ha, actionParts_split.1 hp]
    simp only [String.ofList_toList]
    have huniq : ∀ f, permReport raw a f ↔ (¬ KnownService raw s ∧ f = .service s ∨
        KnownService raw s ∧ permissionOk ((actionsOf (loadServiceMap raw) (lower s)).getD []) (lower p) = false ∧ f = .permission p s) := by
      intro f
      constructor
      · rintro ⟨s', p', hp', h'⟩
        obtain ⟨rfl, rfl⟩ := actionParts_unique hp hp'
        exact h'
      · intro h'
        exact ⟨s, p, hp, h'⟩
    rcases C102_table raw s with ⟨h1, h2⟩ | ⟨h1, l, h2, h3⟩
    · rw [h2]
      refine ⟨_, rfl, fun f q => ?_⟩
      rw [huniq]
      simp [h1]
    · rw [h2]
      refine ⟨_, rfl, fun f q => ?_⟩
      rw [huniq, h2, Option.getD_some]
      cases permissionOk l (lower p) <;> simp [h1]

theorem lower_mem {c : Char} (hc : ∀ d : Char, d.toLower = c → d = c) {p : String} (h : c ∉ p.toList) : c ∉ (lower p).toList := by
  unfold lower
  rw [String.toList_ofList, List.mem_map]
  rintro ⟨d, hd, e⟩
  exact h (hc d e ▸ hd)

theorem toLower_val {d e : Char} (he : e.val.toNat < 97) (h : d.toLower = e) : d = e := by
  unfold Char.toLower at h
  split at h
  · rename_i hd
    exfalso
    have h1 : 65 ≤ d.val.toNat := UInt32.le_iff_toNat_le.1 hd.1
    have h2 : d.val.toNat ≤ 90 := UInt32.le_iff_toNat_le.1 hd.2
    have h3 : (d.val + ('a'.val - 'A'.val)).toNat = e.val.toNat := congrArg (fun c : Char => c.val.toNat) h
    rw [UInt32.toNat_add, show ('a'.val - 'A'.val).toNat = 32 by decide, Nat.mod_eq_of_lt (by omega)] at h3
    omega
  · exact h

theorem lower_star {p : String} : (lower p = "*") ↔ p = "*" := by
  constructor
  · intro h
    have h1 : (lower p).toList = ['*'] := by rw [h]; rfl
    unfold lower at h1
    rw [String.toList_ofList] at h1
    obtain ⟨d, hd, e⟩ := List.map_eq_singleton_iff.1 h1
    rw [toLower_val (by decide) e] at hd
    exact String.toList_injective hd
  · rintro rfl
    decide +kernel

theorem not_mem_lower_star {p : String} (h : '*' ∉ p.toList) : '*' ∉ (lower p).toList := lower_mem (fun _ e => toLower_val (by decide) e) h

theorem not_mem_lower_query {p : String} (h : '?' ∉ p.toList) : '?' ∉ (lower p).toList := lower_mem (fun _ e => toLower_val (by decide) e) h

theorem permReport_plain {raw : List (String × List String)} {a : String} (ha : PermitPlain a) (f : PermFault) :
    permReport raw a f ↔ PermitFault raw a f := by
  rcases ha with rfl | ⟨s, p, hp, hq⟩
  · constructor <;> rintro ⟨s, p, hp, -⟩ <;> exact absurd rfl (actionParts_ne_star hp)
  have key : KnownService raw s → (permissionOk ((actionsOf (loadServiceMap raw) (lower s)).getD []) (lower p) = false ↔ p ≠ "*" ∧ ¬ ServiceAction raw s p) := by
    intro hk
    rcases C102_table raw s with ⟨h1, h2⟩ | ⟨h1, l, h2, h3⟩
    · exact absurd hk h1
    rw [h2, Option.getD_some]
    rcases hq with rfl | ⟨h4, h5⟩
    · rw [lower_star.2 rfl]
      simp [permissionOk]
    · rw [← Bool.not_eq_true, permissionOk_plain (not_mem_lower_star h4), h3]
      constructor
      · intro hn
        refine ⟨by rintro rfl; exact h4 (by decide), ?_⟩
        rintro ⟨x, hx, hw⟩
        rw [wild_plain (not_mem_lower_star h4) (not_mem_lower_query h5)] at hw
        rw [String.toList_injective hw] at hn
        exact hn hx
      · rintro ⟨-, hn⟩ hx
        exact hn ⟨_, hx, (wild_plain (not_mem_lower_star h4) (not_mem_lower_query h5)).2 rfl⟩
  constructor
  · rintro ⟨s', p', hp', h⟩
    obtain ⟨rfl, rfl⟩ := actionParts_unique hp hp'
    refine ⟨s, p, hp, h.imp id ?_⟩
    rintro ⟨h1, h2, h3⟩
    exact ⟨h1, ((key h1).1 h2).1, ((key h1).1 h2).2, h3⟩
  · rintro ⟨s', p', hp', h⟩
    obtain ⟨rfl, rfl⟩ := actionParts_unique hp hp'
    refine ⟨s, p, hp, h.imp id ?_⟩
    rintro ⟨h1, h2, h3, h4⟩
    exact ⟨h1, (key h1).2 ⟨h2, h3⟩, h4⟩

theorem permReport_simple {raw : List (String × List String)} {a : String} (ha : SimpleAction a) {f : PermFault} (h : permReport raw a f) :
    PermitFault raw a f := by
  obtain ⟨s, p, hp, h⟩ := h
  refine ⟨s, p, hp, h.imp id ?_⟩
  rintro ⟨h1, h2, h3⟩
  rcases ha with rfl | ⟨s', p', hp', hq, hs⟩
  · exact absurd rfl (actionParts_ne_star hp)
  obtain ⟨rfl, rfl⟩ := actionParts_unique hp hp'
  refine ⟨h1, ?_, ?_, h3⟩
  · rintro rfl
    rw [lower_star.2 rfl] at h2
    simp [permissionOk] at h2
  · rintro ⟨x, hx, hw⟩
    rcases C102_table raw s with ⟨h4, -⟩ | ⟨-, l, h5, h6⟩
    · exact h4 h1
    rw [h5, Option.getD_some, permissionOk_of_match ((h6 x).2 hx) hw (not_mem_lower_query hq)] at h2
    · cases h2
    · refine hs.imp not_mem_lower_star (Or.imp ?_ ?_)
      · intro e
        obtain ⟨l, hl⟩ := List.head?_eq_some_iff.1 e
        simp [lower, hl]
      · intro e
        obtain ⟨l, hl⟩ := List.getLast?_eq_some_iff.1 e
        simp [lower, hl]

/-- C102: an action without wildcards has a finding if and only if there is no such action, and the finding tells whether its service exists. -/
theorem C102_action_exact (raw : List (String × List String)) {a : String} (ha : PermitPlain a) (path : Path) :
    ∃ l, checkPermission (loadServiceMap raw) (.str a) path = .ok l ∧ ∀ f p, (f, p) ∈ l ↔ PermitFault raw a f ∧ p = path := by
  obtain ⟨l, h1, h2⟩ := checkPermission_spec raw (a := a) (by
    rcases ha with ha | ⟨s, p, ⟨rfl, -⟩, -⟩
    · exact .inl ha
    · exact .inr (by simp)) path
  refine ⟨l, h1, fun f p => ?_⟩
  rw [h2, permReport_plain ha]

/-- C102: no action that exists is reported, where stars are first or last and question marks are not used. -/
theorem C102_action_sound (raw : List (String × List String)) {a : String} (ha : SimpleAction a) (path : Path) :
    ∃ l, checkPermission (loadServiceMap raw) (.str a) path = .ok l ∧ ∀ f p, (f, p) ∈ l → PermitFault raw a f ∧ p = path := by
  obtain ⟨l, h1, h2⟩ := checkPermission_spec raw (a := a) (by
    rcases ha with ha | ⟨s, p, ⟨rfl, -⟩, -⟩
    · exact .inl ha
    · exact .inr (by simp)) path
  refine ⟨l, h1, fun f p h => ?_⟩
  obtain ⟨h3, h4⟩ := (h2 f p).1 h
  exact ⟨permReport_simple ha h3, h4⟩

/-! ### statements -/

theorem getActions_spec {st : List (Key × Val)} (hw : (st.map Prod.fst).Nodup) (hg : GoodStatement st) :
    ∃ l, getActions (.dict st) = .ok l ∧ ∀ x, x ∈ l ↔ ∃ a, x = .str a ∧ ActionIn st a := by
  have hl : ∀ k v, dlookup (Key.str k) st = some v ↔ (Key.str k, v) ∈ st := fun k v => ⟨dlookup_mem, dlookup_of_mem hw⟩
  have h1 : ∀ x, x ∈ actionItems (dlookup (.str "Action") st) ↔
      ∃ a, x = .str a ∧ ((Key.str "Action", Val.str a) ∈ st ∨ ∃ xs, (Key.str "Action", Val.list xs) ∈ st ∧ Val.str a ∈ xs) := by
    intro x
    constructor
    · intro h
      unfold actionItems at h
      split at h
      · rename_i s hs
        exact ⟨s, List.mem_singleton.1 h, .inl ((hl _ _).1 hs)⟩
      · rename_i xs hs
        obtain ⟨a, rfl⟩ := hg.texts xs (.inl ((hl _ _).1 hs)) x h
        exact ⟨a, rfl, .inr ⟨xs, (hl _ _).1 hs, h⟩⟩
      · cases h
    · rintro ⟨a, rfl, (h | ⟨xs, h, h'⟩)⟩
      · rw [(hl _ _).2 h]; simp [actionItems]
      · rw [(hl _ _).2 h]; exact h'
  have h2 : ∃ l, notActionItems (dlookup (.str "Action") st) (dlookup (.str "NotAction") st) = .ok l ∧ ∀ x, x ∈ l ↔
      ∃ a, x = .str a ∧ ((Key.str "NotAction", Val.str a) ∈ st ∨ ∃ xs, (Key.str "NotAction", Val.list xs) ∈ st ∧ Val.str a ∈ xs) := by
    cases hn : dlookup (Key.str "NotAction") st with
    | none =>
      refine ⟨[], rfl, fun x => ?_⟩
      simp only [List.not_mem_nil, false_iff]
      rintro ⟨a, -, (h | ⟨xs, h, -⟩)⟩ <;> rw [(hl _ _).2 h] at hn <;> cases hn
    | some v =>
      rcases hg.kind v ((hl _ _).1 hn) with ⟨a, rfl⟩ | ⟨⟨xs, rfl⟩, ys, hy⟩
      · refine ⟨[.str a], rfl, fun x => ?_⟩
        rw [List.mem_singleton]
        constructor
        · rintro rfl
          exact ⟨a, rfl, .inl ((hl _ _).1 hn)⟩
        · rintro ⟨b, rfl, (h | ⟨xs, h, -⟩)⟩ <;> rw [(hl _ _).2 h] at hn <;> cases hn
          rfl
      · refine ⟨xs, by rw [(hl _ _).2 hy]; rfl, fun x => ?_⟩
        constructor
        · intro h
          obtain ⟨a, rfl⟩ := hg.texts xs (.inr ((hl _ _).1 hn)) x h
          exact ⟨a, rfl, .inr ⟨xs, (hl _ _).1 hn, h⟩⟩
        · rintro ⟨b, rfl, (h | ⟨xs', h, h'⟩)⟩ <;> rw [(hl _ _).2 h] at hn <;> cases hn
          exact h'
  obtain ⟨l, h3, h4⟩ := h2
  refine ⟨actionItems (dlookup (.str "Action") st) ++ l, by simp only [getActions, h3], fun x => ?_⟩
  rw [List.mem_append, h1, h4]
  constructor
  · rintro (⟨a, rfl, h⟩ | ⟨a, rfl, h⟩)
    · exact ⟨a, rfl, "Action", .inl rfl, h⟩
    · exact ⟨a, rfl, "NotAction", .inr rfl, h⟩
  · rintro ⟨a, rfl, k, (rfl | rfl), h⟩
    · exact .inl ⟨a, rfl, h⟩
    · exact .inr ⟨a, rfl, h⟩

theorem wf_nodup {st : List (Key × Val)} (hw : (Val.dict st).WF) : (st.map Prod.fst).Nodup := by
  rw [Val.WF] at hw
  exact hw.1

/-- the statements of the list the rule goes through, with their places -/
theorem statementActions_spec {x : Val} (hw : x.WF) (hg : ∀ st, x = .dict st ∨ (∃ ys, x = .list ys ∧ .dict st ∈ ys) → GoodStatement st)
    (ho : ∀ ys, x = .list ys → ∀ y ∈ ys, ∃ st, y = .dict st) :
    ∃ l, statementActions x = .ok l ∧ ∀ u, u ∈ l ↔ ∃ st a, (x = .dict st ∨ ∃ ys, x = .list ys ∧ .dict st ∈ ys) ∧ ActionIn st a ∧ u = .str a := by
  cases x with
  | dict st =>
    obtain ⟨l, h1, h2⟩ := getActions_spec (wf_nodup hw) (hg st (.inl rfl))
    refine ⟨l, h1, fun u => ?_⟩
    rw [h2]
    constructor
    · rintro ⟨a, rfl, h⟩
      exact ⟨st, a, .inl rfl, h, rfl⟩
    · rintro ⟨st', a, (h | ⟨ys, h, -⟩), h', rfl⟩
      · cases h
        exact ⟨a, rfl, h'⟩
      · cases h
  | list ys =>
    rw [Val.WF] at hw
    obtain ⟨l, h1, h2⟩ := collectM_spec (as := ys) (f := getActions) (P := fun y u => ∃ st a, y = .dict st ∧ ActionIn st a ∧ u = .str a) (by
      intro y hy
      obtain ⟨st, rfl⟩ := ho ys rfl y hy
      obtain ⟨l, h1, h2⟩ := getActions_spec (wf_nodup (wfList_at hw hy)) (hg st (.inr ⟨ys, rfl, hy⟩))
      refine ⟨l, h1, fun u => ?_⟩
      rw [h2]
      constructor
      · rintro ⟨a, rfl, h⟩
        exact ⟨st, a, rfl, h, rfl⟩
      · rintro ⟨st', a, h, h', rfl⟩
        cases h
        exact ⟨a, rfl, h'⟩)
    refine ⟨l, h1, fun u => ?_⟩
    rw [h2]
    constructor
    · rintro ⟨y, hy, st, a, rfl, h, rfl⟩
      exact ⟨st, a, .inr ⟨ys, rfl, hy⟩, h, rfl⟩
    · rintro ⟨st, a, (h | ⟨ys', h, hm⟩), h', rfl⟩
      · cases h
      · cases h
        exact ⟨_, hm, st, a, rfl, h', rfl⟩
  | _ =>
    refine ⟨[], rfl, fun u => ?_⟩
    simp only [List.not_mem_nil, false_iff]
    rintro ⟨st, a, (h | ⟨ys, h, -⟩), -⟩ <;> cases h

theorem mem_statementList {es : List (Key × Val)} {v : Val} (hk : dlookup (.str "Statement") es = some v) {x : Val} {i : Nat} {st : List (Key × Val)} :
    ((statementList es)[i]? = some x ∧ (x = .dict st ∨ ∃ ys, x = .list ys ∧ .dict st ∈ ys) → StatementOf v i st) ∧
      (StatementOf v i st → st ≠ [] → ∃ x, (statementList es)[i]? = some x ∧ (x = .dict st ∨ ∃ ys, x = .list ys ∧ .dict st ∈ ys)) := by
  unfold statementList
  rw [hk]
  constructor
  · rintro ⟨h1, h2⟩
    split at h1
    · rename_i xs e
      cases e
      rcases h2 with rfl | ⟨ys, rfl, h2⟩
      · exact .elem h1
      · exact .nested h1 h2
    · simp at h1
    · rename_i es' _ e
      cases e
      cases i with
      | zero =>
        cases h1
        rcases h2 with h2 | ⟨ys, h2, -⟩
        · cases h2
          exact .one
        · cases h2
      | succ i => simp at h1
    · simp at h1
  · intro h hne
    cases h with
    | one =>
      cases st with
      | nil => exact absurd rfl hne
      | cons e st => exact ⟨_, rfl, .inl rfl⟩
    | elem h => exact ⟨_, h, .inl rfl⟩
    | nested h h' => exact ⟨_, h, .inr ⟨_, rfl, h'⟩⟩

theorem permStatements_spec (raw : List (String × List String)) {es : List (Key × Val)} (hw : (Val.dict es).WF)
    (hg : ∀ v, (Key.str "Statement", v) ∈ es → GoodStatements v) (path : Path) :
    ∃ l, collectM (permStatement (loadServiceMap raw) path) (statementList es).zipIdx = .ok l ∧
      ∀ b : PermFinding, b ∈ l ↔ ∃ v i st a, (Key.str "Statement", v) ∈ es ∧ StatementOf v i st ∧ ActionIn st a ∧ permReport raw a b.1 ∧
        b.2 = path ++ [.str "Statement", .int (i : Nat)] := by
  have hl : ∀ v, dlookup (Key.str "Statement") es = some v ↔ (Key.str "Statement", v) ∈ es := fun v => ⟨dlookup_mem, dlookup_of_mem (wf_nodup hw)⟩
  cases hd : dlookup (Key.str "Statement") es with
  | none =>
    refine ⟨[], by simp [statementList, hd, collectM], fun b => ?_⟩
    simp only [List.not_mem_nil, false_iff]
    rintro ⟨v, i, st, a, h, -⟩
    rw [(hl v).2 h] at hd
    cases hd
  | some v =>
    have hm := (hl v).1 hd
    have hgv := hg v hm
    have hvw : v.WF := at_wf (.key hm .here) hw
    obtain ⟨l, h1, h2⟩ := collectM_spec (as := (statementList es).zipIdx) (f := permStatement (loadServiceMap raw) path)
      (P := fun xi b => ∃ st a, (xi.1 = .dict st ∨ ∃ ys, xi.1 = .list ys ∧ .dict st ∈ ys) ∧ ActionIn st a ∧ permReport raw a b.1 ∧
        b.2 = path ++ [.str "Statement", .int xi.2]) (by
      rintro ⟨x, i⟩ hx
      have hx := List.mem_zipIdx_iff_getElem?.1 hx
      simp only at hx
      have hxw : x.WF ∧ ∀ ys, x = .list ys → ∃ xs, v = .list xs ∧ .list ys ∈ xs := by
        unfold statementList at hx
        rw [hd] at hx
        split at hx
        · rename_i xs e
          cases e
          rw [Val.WF] at hvw
          exact ⟨wfList_at hvw (List.mem_of_getElem? hx), fun ys hy => ⟨xs, rfl, hy ▸ List.mem_of_getElem? hx⟩⟩
        · simp at hx
        · rename_i es' _ e
          cases e
          cases i with
          | zero => cases hx; exact ⟨hvw, fun ys hy => by cases hy⟩
          | succ i => simp at hx
        · simp at hx
      obtain ⟨acts, h1, h2⟩ := statementActions_spec (x := x) hxw.1
        (fun st h => hgv.each i st ((mem_statementList hd).1 ⟨hx, h⟩)) (fun ys hy y hm' => by
          obtain ⟨xs, hxs, hin⟩ := hxw.2 ys hy
          exact hgv.objects xs ys hxs hin y hm')
      obtain ⟨l, h3, h4⟩ := collectM_spec (as := acts) (f := fun a => checkPermission (loadServiceMap raw) a (path ++ [.str "Statement", .int i]))
        (P := fun u b => ∃ a, u = .str a ∧ permReport raw a b.1 ∧ b.2 = path ++ [.str "Statement", .int i]) (by
        intro u hu
        obtain ⟨st, a, h5, h6, rfl⟩ := (h2 u).1 hu
        obtain ⟨l, h7, h8⟩ := checkPermission_spec raw ((hgv.each i st ((mem_statementList hd).1 ⟨hx, h5⟩)).colon a h6) (path ++ [.str "Statement", .int i])
        refine ⟨l, h7, fun b => ?_⟩
        rw [show b = (b.1, b.2) from rfl, h8]
        constructor
        · intro h; exact ⟨a, rfl, h⟩
        · rintro ⟨a', e, h⟩
          cases e
          exact h)
      refine ⟨l, by simp only [permStatement, h1, h3], fun b => ?_⟩
      rw [h4]
      constructor
      · rintro ⟨u, hu, a, rfl, h⟩
        obtain ⟨st, a', h5, h6, e⟩ := (h2 _).1 hu
        cases e
        exact ⟨st, a, h5, h6, h⟩
      · rintro ⟨st, a, h5, h6, h⟩
        exact ⟨.str a, (h2 _).2 ⟨st, a, h5, h6, rfl⟩, a, rfl, h⟩)
    refine ⟨l, h1, fun b => ?_⟩
    rw [h2]
    constructor
    · rintro ⟨⟨x, i⟩, hx, st, a, h3, h4, h5⟩
      exact ⟨v, i, st, a, hm, (mem_statementList hd).1 ⟨List.mem_zipIdx_iff_getElem?.1 hx, h3⟩, h4, h5⟩
    · rintro ⟨v', i, st, a, h3, h4, h5, h6⟩
      rw [(hl v').2 h3] at hd
      cases hd
      obtain ⟨x, hx, h7⟩ := (mem_statementList (x := .none) ((hl v).2 hm)).2 h4 (by
        rintro rfl
        obtain ⟨k, -, (h | ⟨xs, h, -⟩)⟩ := h5 <;> cases h)
      exact ⟨(x, i), List.mem_zipIdx_iff_getElem?.2 hx, st, a, h7, h5, h6⟩

theorem permObject_spec (raw : List (String × List String)) {kvs : List (Key × Val)} (hw : (Val.dict kvs).WF) (hg : GoodActions (.dict kvs)) (path : Path) :
    ∃ l, permObject (loadServiceMap raw) kvs path = .ok l ∧
      ∀ b : PermFinding, b ∈ l ↔ ∃ a r, DocAction (.dict kvs) a r ∧ permReport raw a b.1 ∧ b.2 = path ++ r := by
  have kept : ∀ (es : List (Key × Val)) v, (Key.str "Statement", v) ∈ es.filter (fun kv => decide (kv.2 ≠ noValue)) ↔ Kept es (.str "Statement") v :=
    fun es v => mem_withoutNoValue
  obtain ⟨l, h1, h2⟩ := collectM_spec (as := itemsSafe [.dict] kvs path) (f := fun dp : Val × Path =>
      match dp.1 with
      | .dict es => collectM (permStatement (loadServiceMap raw) dp.2) (statementList es).zipIdx
      | _ => .ok [])
    (P := fun dp b => ∃ q es, Leaf (.dict kvs) q (.dict es) ∧ dp = (withoutNoValue (.dict es), path ++ q) ∧
      ∃ v i st a, Kept es (.str "Statement") v ∧ StatementOf v i st ∧ ActionIn st a ∧ permReport raw a b.1 ∧
        b.2 = path ++ q ++ [.str "Statement", .int (i : Nat)]) (by
    rintro ⟨w, p⟩ hm
    obtain ⟨q, u, hl, rfl, rfl, hu⟩ := (mem_itemsSafe _ _ _ _ _ hw).1 hm
    cases u <;> simp [okType, Val.isInst, Val.isDict] at hu
    rename_i es
    have hes : (Val.dict (es.filter (fun kv => decide (kv.2 ≠ noValue)))).WF := (by
      have := leaf_wf hl hw
      rw [Val.WF] at this ⊢
      exact ⟨this.1.sublist (List.filter_sublist.map _), wfDict_filter this.2⟩)
    obtain ⟨l, h1, h2⟩ := permStatements_spec raw hes (fun v hv => hg q es v hl ((kept es v).1 hv)) (path ++ q)
    refine ⟨l, by simpa only [withoutNoValue] using h1, fun b => ?_⟩
    rw [h2]
    constructor
    · rintro ⟨v, i, st, a, h3, h4⟩
      exact ⟨q, es, hl, rfl, v, i, st, a, (kept es v).1 h3, h4⟩
    · rintro ⟨q', es', hl', e, v, i, st, a, h3, h4⟩
      simp only [withoutNoValue, Prod.mk.injEq, Val.dict.injEq, List.append_cancel_left_eq] at e
      obtain ⟨e1, rfl⟩ := e
      refine ⟨v, i, st, a, ?_, h4⟩
      rw [e1]
      exact (kept es' v).2 h3)
  refine ⟨l, h1, fun b => ?_⟩
  rw [h2]
  constructor
  · rintro ⟨dp, -, q, es, hl, -, v, i, st, a, h3, h4, h5, h6, h7⟩
    exact ⟨a, _, ⟨q, es, v, i, st, hl, h3, h4, h5, rfl⟩, h6, by rw [h7, List.append_assoc]⟩
  · rintro ⟨a, r, ⟨q, es, v, i, st, hl, h3, h4, h5, rfl⟩, h6, h7⟩
    exact ⟨_, (mem_itemsSafe _ _ _ _ _ hw).2 ⟨q, _, hl, rfl, rfl, rfl⟩, q, es, hl, rfl, v, i, st, a, h3, h4, h5, h6, by rw [h7, List.append_assoc]⟩

/-- the documents that are given can be checked; a text that is no JSON is not among them -/
def GoodPermDoc (decode : String → Option Val) (u : Val) : Prop :=
  (∀ s, u = .str s → decode s ≠ none) ∧ ∀ es, GivesDoc decode u es → (Val.dict es).WF ∧ GoodActions (.dict es)

theorem permDocument_spec (raw : List (String × List String)) {decode : String → Option Val} {u : Val} (h : GoodPermDoc decode u) (path : Path) :
    ∃ l, permDocument decode (loadServiceMap raw) u path = .ok l ∧
      ∀ b : PermFinding, b ∈ l ↔ ∃ es a r, GivesDoc decode u es ∧ DocAction (.dict es) a r ∧ permReport raw a b.1 ∧ b.2 = path ++ r := by
  have go : ∀ es, GivesDoc decode u es → (∀ es', GivesDoc decode u es' → es' = es) → ∃ l, permObject (loadServiceMap raw) es path = .ok l ∧
      ∀ b : PermFinding, b ∈ l ↔ ∃ es a r, GivesDoc decode u es ∧ DocAction (.dict es) a r ∧ permReport raw a b.1 ∧ b.2 = path ++ r := by
    intro es he hu
    obtain ⟨l, h1, h2⟩ := permObject_spec raw (h.2 es he).1 (h.2 es he).2 path
    refine ⟨l, h1, fun b => ?_⟩
    rw [h2]
    constructor
    · rintro ⟨a, r, h3⟩
      exact ⟨es, a, r, he, h3⟩
    · rintro ⟨es', a, r, h3, h4⟩
      rw [hu es' h3] at h4
      exact ⟨a, r, h4⟩
  have none : (∀ es, ¬ GivesDoc decode u es) → ∃ l, (Except.ok [] : PyM (List PermFinding)) = .ok l ∧
      ∀ b : PermFinding, b ∈ l ↔ ∃ es a r, GivesDoc decode u es ∧ DocAction (.dict es) a r ∧ permReport raw a b.1 ∧ b.2 = path ++ r := by
    intro hn
    refine ⟨[], rfl, fun b => ?_⟩
    simp only [List.not_mem_nil, false_iff]
    rintro ⟨es, a, r, h3, -⟩
    exact hn es h3
  unfold permDocument
  split
  · rename_i s
    split
    · rename_i hd
      exact absurd hd (h.1 s rfl)
    · rename_i kvs hd
      refine go kvs (.inr ⟨s, rfl, hd⟩) ?_
      rintro es' (e | ⟨s', e, h'⟩)
      · cases e
      · cases e
        rw [hd] at h'
        cases h'
        rfl
    · rename_i v hd hx
      refine none ?_
      rintro es (e | ⟨s', e, h'⟩)
      · cases e
      · cases e
        rw [hx] at h'
        cases h'
        exact hd es rfl
  · rename_i kvs
    refine go kvs (.inl rfl) ?_
    rintro es' (e | ⟨s', e, h'⟩)
    · cases e
      rfl
    · cases e
  · rename_i h1 h2
    refine none ?_
    rintro es (e | ⟨s', e, h'⟩)
    · exact h2 es e
    · exact h1 s' e

/-! ### a resource -/

/-- the values of the property are not null and can be checked -/
def PermDocsGood (decode : String → Option Val) (kvs : List (Key × Val)) (k : String) : Prop :=
  ∀ v, (Key.str k, v) ∈ kvs → v ≠ .none ∧ (∀ q, ¬ Leaf v q .none) ∧ ∀ q u, PropValue v q u → NoCall u → GoodPermDoc decode u

theorem checkPermDocs (raw : List (String × List String)) {decode : String → Option Val} {kvs : List (Key × Val)} {k : String} (hw : (Val.dict kvs).WF)
    (hg : PermDocsGood decode kvs k) (n : Nat) (path : Path) :
    ∃ l, checkValue (n + 2) { value := some (permDocument decode (loadServiceMap raw)) } (.dict kvs) k path = .ok l ∧
      ∀ b : PermFinding, b ∈ l ↔ ∃ d u es a r, DocsAt kvs k d u ∧ GivesDoc decode u es ∧ DocAction (.dict es) a r ∧ permReport raw a b.1 ∧
        b.2 = path ++ (d ++ r) := by
  have hnd := wf_nodup hw
  cases hd : dlookup (Key.str k) kvs with
  | none =>
    refine ⟨[], by simp [checkValue, hd, getValues], fun b => ?_⟩
    constructor
    · intro h; cases h
    · rintro ⟨d, u, es, a, r, ⟨v, q, hm, -⟩, -⟩
      rw [dlookup_of_mem hnd hm] at hd
      cases hd
  | some v =>
    obtain ⟨h0, hnull, hgood⟩ := hg v (dlookup_mem hd)
    obtain ⟨l, h1, h2⟩ := checkValue_only (f := permDocument decode (loadServiceMap raw)) hd h0 hnull n (path := path) (fun q u hu hn => by
      obtain ⟨l, hl, -⟩ := permDocument_spec raw (hgood q u hu hn) (path ++ .str k :: q)
      exact ⟨l, hl⟩)
    refine ⟨l, h1, fun b => ?_⟩
    rw [h2]
    constructor
    · rintro ⟨q, u, l', h3, h4, h5, h6⟩
      obtain ⟨l'', e1, e2⟩ := permDocument_spec raw (hgood q u h3 h4) (path ++ .str k :: q)
      rw [e1] at h5
      cases h5
      obtain ⟨es, a, r, e3, e4, e5, e6⟩ := (e2 b).1 h6
      exact ⟨_, u, es, a, r, ⟨v, q, dlookup_mem hd, h3, h4, rfl⟩, e3, e4, e5, by rw [e6, List.append_assoc]⟩
    · rintro ⟨d, u, es, a, r, ⟨v', q, hm, h3, h4, rfl⟩, e3, e4, e5, e6⟩
      rw [dlookup_of_mem hnd hm] at hd
      cases hd
      obtain ⟨l'', e1, e2⟩ := permDocument_spec raw (hgood q u h3 h4) (path ++ .str k :: q)
      exact ⟨q, u, l'', h3, h4, e1, (e2 b).2 ⟨es, a, r, e3, e4, e5, by rw [e6, List.append_assoc]⟩⟩

/-- the documents of the resource can be checked -/
structure GoodPermissions (decode : String → Option Val) (kvs : List (Key × Val)) : Prop where
  wf : (Val.dict kvs).WF
  docs : ∀ k ∈ permKeys, PermDocsGood decode kvs k
  policies : ∀ xs es, (Key.str "Policies", Val.list xs) ∈ kvs → .dict es ∈ xs → PermDocsGood decode es "PolicyDocument"

theorem permProperty_spec (raw : List (String × List String)) {decode : String → Option Val} {kvs : List (Key × Val)} (h : GoodPermissions decode kvs) (n : Nat)
    (path : Path) {kv : Key × Val} (hkv : kv ∈ kvs) :
    ∃ l, permProperty (n + 2) decode (loadServiceMap raw) kvs path kv = .ok l ∧
      ∀ b : PermFinding, b ∈ l ↔ ∃ d u es a r, ((∃ k ∈ permKeys, kv.1 = .str k ∧ DocsAt kvs k d u) ∨
        ∃ xs i es' d', kv = (Key.str "Policies", Val.list xs) ∧ xs[i]? = some (.dict es') ∧ DocsAt es' "PolicyDocument" d' u ∧
          d = .str "Policies" :: .int (i : Nat) :: d') ∧ GivesDoc decode u es ∧ DocAction (.dict es) a r ∧ permReport raw a b.1 ∧ b.2 = path ++ (d ++ r) := by
  unfold permProperty
  have pk : ("Policies" : String) ∉ permKeys := by decide +kernel
  split
  · rename_i xs
    have hxs : Val.WFList xs := by
      have := at_wf (.key hkv .here) h.wf
      rwa [Val.WF] at this
    obtain ⟨l, h1, h2⟩ := collectM_spec (as := xs.zipIdx)
      (f := fun xi : Val × Nat => checkValue (n + 2) { value := some (permDocument decode (loadServiceMap raw)) } xi.1 "PolicyDocument"
        (path ++ [.str "Policies", .int xi.2]))
      (P := fun xi b => ∃ es' d u es a r, xi.1 = .dict es' ∧ DocsAt es' "PolicyDocument" d u ∧ GivesDoc decode u es ∧ DocAction (.dict es) a r ∧
        permReport raw a b.1 ∧ b.2 = path ++ (.str "Policies" :: .int xi.2 :: d ++ r)) (by
      rintro ⟨x, i⟩ hm
      have hx : x ∈ xs := List.mem_of_getElem? (List.mem_zipIdx_iff_getElem?.1 hm)
      by_cases hd : ∃ es, x = .dict es
      · obtain ⟨es', rfl⟩ := hd
        obtain ⟨l, h1, h2⟩ := checkPermDocs raw (wfList_at hxs hx) (h.policies xs es' hkv hx) n (path ++ [.str "Policies", .int i])
        refine ⟨l, h1, fun b => ?_⟩
        rw [h2]
        constructor
        · rintro ⟨d, u, es, a, r, h3, h4, h5, h6, h7⟩
          exact ⟨es', d, u, es, a, r, rfl, h3, h4, h5, h6, by simpa using h7⟩
        · rintro ⟨es'', d, u, es, a, r, e, h3, h4, h5, h6, h7⟩
          cases e
          exact ⟨d, u, es, a, r, h3, h4, h5, h6, by simpa using h7⟩
      · refine ⟨[], ?_, fun b => ?_⟩
        · cases x with
          | dict es => exact absurd ⟨es, rfl⟩ hd
          | _ => rfl
        · simp only [List.not_mem_nil, false_iff]
          rintro ⟨es, d, u, es', a, r, e, -⟩
          exact hd ⟨es, e⟩)
    refine ⟨l, h1, fun b => ?_⟩
    rw [h2]
    constructor
    · rintro ⟨⟨x, i⟩, hm, es', d, u, es, a, r, hx, h3, h4, h5, h6, h7⟩
      simp only at hx
      subst hx
      exact ⟨_, u, es, a, r, .inr ⟨xs, i, es', d, rfl, List.mem_zipIdx_iff_getElem?.1 hm, h3, rfl⟩, h4, h5, h6, h7⟩
    · rintro ⟨d, u, es, a, r, (⟨k, hk, e, -⟩ | ⟨xs', i, es', d', e, hi, h3, rfl⟩), h4⟩
      · cases e
        exact absurd hk pk
      · cases e
        exact ⟨(.dict es', i), List.mem_zipIdx_iff_getElem?.2 hi, es', d', u, es, a, r, rfl, h3, h4⟩
  · rename_i k v hne
    by_cases hk : k ∈ permKeys
    · rw [if_pos hk]
      obtain ⟨l, h1, h2⟩ := checkPermDocs raw h.wf (h.docs k hk) n path
      refine ⟨l, h1, fun b => ?_⟩
      rw [h2]
      constructor
      · rintro ⟨d, u, es, a, r, h3, h4⟩
        exact ⟨d, u, es, a, r, .inl ⟨k, hk, rfl, h3⟩, h4⟩
      · rintro ⟨d, u, es, a, r, (⟨k', hk', e, h3⟩ | ⟨xs, i, es', d', e, -⟩), h4⟩
        · cases e
          exact ⟨d, u, es, a, r, h3, h4⟩
        · cases e
          exact absurd hk pk
    · rw [if_neg hk]
      refine ⟨[], rfl, fun b => ?_⟩
      simp only [List.not_mem_nil, false_iff]
      rintro ⟨d, u, es, a, r, (⟨k', hk', e, h3⟩ | ⟨xs, i, es', d', e, -⟩), h4⟩
      · cases e
        exact hk hk'
      · cases e
        exact hne xs rfl rfl
  · rename_i h1 h2
    refine ⟨[], rfl, fun b => ?_⟩
    simp only [List.not_mem_nil, false_iff]
    rintro ⟨d, u, es, a, r, (⟨k', hk', e, h3⟩ | ⟨xs, i, es', d', e, -⟩), h4⟩
    · obtain ⟨k, v⟩ := kv
      simp only at e
      subst e
      exact h2 _ _ rfl
    · exact h1 xs e

/-- what the rule reports: the messages for the actions of the resource, at their statements -/
theorem permissions_spec (raw : List (String × List String)) {decode : String → Option Val} {kvs : List (Key × Val)} (h : GoodPermissions decode kvs) (n : Nat)
    (path : Path) :
    ∃ l, permissions (n + 2) decode raw kvs path = .ok l ∧
      ∀ f p, (f, p) ∈ l ↔ ∃ a r, ResourceAction decode kvs a r ∧ permReport raw a f ∧ p = path ++ r := by
  obtain ⟨l, h1, h2⟩ := collectM_spec (fun kv hkv => permProperty_spec raw h n path (kv := kv) hkv)
  refine ⟨l, h1, fun f p => ?_⟩
  rw [h2]
  constructor
  · rintro ⟨⟨k, v⟩, hkv, d, u, es, a, r, (⟨k', hk', e, h3⟩ | ⟨xs, i, es', d', e, hi, ⟨v', q, h3, h3', h3'', rfl⟩, rfl⟩), h4, h5, h6, h7⟩
    · refine ⟨a, d ++ r, ⟨d, u, es, r, .inl ⟨k', ?_, h3⟩, h4, h5, rfl⟩, h6, h7⟩
      simp only [permKeys, List.mem_cons, List.not_mem_nil, or_false] at hk' ⊢
      tauto
    · cases e
      exact ⟨a, _, ⟨_, u, es, r, .inr ⟨xs, i, es', v', q, hkv, hi, h3, h3', h3'', rfl⟩, h4, h5, rfl⟩, h6, h7⟩
  · rintro ⟨a, _, ⟨d, u, es, r, (⟨k, hk, h3⟩ | ⟨xs, i, es', v, q, hkv, hi, h3, h3', h3'', rfl⟩), h4, h5, rfl⟩, h6, h7⟩
    · have hk' : k ∈ permKeys := by
        simp only [permKeys, List.mem_cons, List.not_mem_nil, or_false] at hk ⊢
        tauto
      obtain ⟨v, q, hm, h3'⟩ := h3
      exact ⟨(.str k, v), hm, d, u, es, a, r, .inl ⟨k, hk', rfl, v, q, hm, h3'⟩, h4, h5, h6, h7⟩
    · exact ⟨_, hkv, _, u, es, a, r, .inr ⟨xs, i, es', _, rfl, hi, ⟨v, q, h3, h3', h3'', rfl⟩, rfl⟩, h4, h5, h6, h7⟩

/-- C102: for a resource whose actions have no wildcards the findings are the actions that do not exist, at their statements. -/
theorem C102_exact_partial (raw : List (String × List String)) {decode : String → Option Val} {kvs : List (Key × Val)} (h : GoodPermissions decode kvs) (n : Nat)
    (path : Path) (hp : ∀ a r, ResourceAction decode kvs a r → PermitPlain a) :
    ∃ l, permissions (n + 2) decode raw kvs path = .ok l ∧
      ∀ f p, (f, p) ∈ l ↔ ∃ a r, ResourceAction decode kvs a r ∧ PermitFault raw a f ∧ p = path ++ r := by
  obtain ⟨l, h1, h2⟩ := permissions_spec raw h n path
  refine ⟨l, h1, fun f p => ?_⟩
  rw [h2]
  constructor
  · rintro ⟨a, r, h3, h4, h5⟩
    exact ⟨a, r, h3, (permReport_plain (hp a r h3) f).1 h4, h5⟩
  · rintro ⟨a, r, h3, h4, h5⟩
    exact ⟨a, r, h3, (permReport_plain (hp a r h3) f).2 h4, h5⟩

/-- C102: for a resource whose actions have stars at their ends only, each finding is an action that does not exist, at its statement. -/
theorem C102_sound_partial (raw : List (String × List String)) {decode : String → Option Val} {kvs : List (Key × Val)} (h : GoodPermissions decode kvs) (n : Nat)
    (path : Path) (hp : ∀ a r, ResourceAction decode kvs a r → SimpleAction a) :
    ∃ l, permissions (n + 2) decode raw kvs path = .ok l ∧
      ∀ f p, (f, p) ∈ l → ∃ a r, ResourceAction decode kvs a r ∧ PermitFault raw a f ∧ p = path ++ r := by
  obtain ⟨l, h1, h2⟩ := permissions_spec raw h n path
  refine ⟨l, h1, fun f p h' => ?_⟩
  obtain ⟨a, r, h3, h4, h5⟩ := (h2 f p).1 h'
  exact ⟨a, r, h3, permReport_simple (hp a r h3) h4, h5⟩

/-- C102: a text that is no JSON is reported. -/
theorem C102_not_json (raw : List (String × List String)) (decode : String → Option Val) {s : String} (h : decode s = none) (path : Path) :
    permDocument decode (loadServiceMap raw) (.str s) path = .ok [(.notJson, path)] := by simp [permDocument, h]

example : (fun _ : String => (none : Option Val)) "{" = none := rfl

/-! ### examples -/

/-- a service with one action -/
def exServices : List (String × List String) := [("S3", ["GetObject"])]

/-- a policy with one statement -/
def exPermPolicy (st : Val) : List (Key × Val) := [(.str "PolicyDocument", .dict [(.str "Statement", .list [st])])]

/-- a statement with an action that exists and one that does not -/
def exPermStatement : List (Key × Val) := [(.str "Effect", .str "Allow"), (.str "Action", .list [.str "s3:getOBJECT", .str "s3:GetObjects"])]

theorem exPerm_leaf {q : Path} {u st : Val} (h : Leaf (.dict [(.str "Statement", st)]) q u) : q = [] ∧ u = .dict [(.str "Statement", st)] := by
  generalize hx : Val.dict [(Key.str "Statement", st)] = z at h
  cases h with
  | here => exact ⟨rfl, rfl⟩
  | _ => injection hx with hx; simp at hx

theorem exPerm_value {q : Path} {u st : Val} (h : PropValue (.dict [(.str "Statement", st)]) q u) : q = [] ∧ u = .dict [(.str "Statement", st)] := by
  obtain ⟨p, w, hl, (⟨-, rfl, rfl⟩ | ⟨xs, i, x, r, e, -⟩)⟩ := h
  · exact exPerm_leaf hl
  · rw [(exPerm_leaf hl).2] at e
    cases e

theorem exPerm_action {a : String} (h : ActionIn exPermStatement a) : a = "s3:getOBJECT" ∨ a = "s3:GetObjects" := by
  obtain ⟨k, (rfl | rfl), (h | ⟨xs, h, h'⟩)⟩ := h
  · simp [exPermStatement] at h
  · simp only [exPermStatement, List.mem_cons, Prod.mk.injEq, List.not_mem_nil, or_false] at h
    rcases h with ⟨e, -⟩ | ⟨-, e⟩
    · simp at e
    · cases e
      simpa using h'
  · simp [exPermStatement] at h
  · simp [exPermStatement] at h

theorem exPerm_parts : ActionParts "s3:getOBJECT" "s3" "getOBJECT" ∧ ActionParts "s3:GetObjects" "s3" "GetObjects" := by
  constructor <;> exact ⟨by decide +kernel, by decide +kernel⟩

theorem exPerm_good (decode : String → Option Val) : GoodPermissions decode (exPermPolicy (.dict exPermStatement)) := by
  have hst : GoodStatement exPermStatement := by
    refine ⟨fun xs h x hx => ?_, fun a ha => ?_, fun v h => ?_⟩
    · simp only [exPermStatement, List.mem_cons, Prod.mk.injEq, List.not_mem_nil, or_false] at h
      rcases h with (⟨-, e⟩ | ⟨-, e⟩) | (⟨e, -⟩ | ⟨e, -⟩)
      · cases e
      · cases e
        simp at hx
        rcases hx with rfl | rfl <;> exact ⟨_, rfl⟩
      · simp at e
      · simp at e
    · right
      rcases exPerm_action ha with rfl | rfl <;> decide +kernel
    · simp [exPermStatement] at h
  refine ⟨by simp [exPermPolicy, exPermStatement, Val.WF, Val.WFDict, Val.WFList], fun k hk v hv => ?_, fun xs es h => ?_⟩
  · simp only [exPermPolicy, List.mem_singleton, Prod.mk.injEq] at hv
    obtain ⟨-, rfl⟩ := hv
    refine ⟨by simp, fun q h => ?_, fun q u h hn => ?_⟩
    · have := (exPerm_leaf h).2
      cases this
    · obtain ⟨-, rfl⟩ := exPerm_value h
      refine ⟨(fun s e => by cases e), fun es hd => ?_⟩
      rcases hd with e | ⟨s, e, -⟩
      · cases e
        refine ⟨by simp [exPermStatement, Val.WF, Val.WFDict, Val.WFList], fun q es' v hl hk => ?_⟩
        have := (exPerm_leaf hl).2
        cases this
        have hm := hk.1
        simp only [List.mem_singleton, Prod.mk.injEq] at hm
        obtain ⟨-, rfl⟩ := hm
        refine ⟨fun i st h => ?_, fun xs ys e h => ?_⟩
        · generalize hz : Val.list [Val.dict exPermStatement] = z at h
          cases h with
          | one => cases hz
          | elem h =>
            cases hz
            cases i with
            | zero => cases h; exact hst
            | succ i => simp at h
          | nested h h' =>
            cases hz
            cases i with
            | zero => cases h
            | succ i => simp at h
        · cases e
          simp at h
      · cases e
  · simp [exPermPolicy] at h

theorem exPerm_plain (decode : String → Option Val) {a : String} {r : Path} (h : ResourceAction decode (exPermPolicy (.dict exPermStatement)) a r) :
    PermitPlain a := by
  obtain ⟨d, u, es, r', hd, hg, ⟨q, kvs, v, i, st, hl, hk, hs, ha, -⟩, -⟩ := h
  have hu : u = .dict [(.str "Statement", .list [.dict exPermStatement])] := by
    rcases hd with ⟨k, hk, v, q, hm, hu, -⟩ | ⟨xs, i, es, v, q, hm, -⟩
    · simp only [exPermPolicy, List.mem_singleton, Prod.mk.injEq] at hm
      obtain ⟨-, rfl⟩ := hm
      exact (exPerm_value hu).2
    · simp [exPermPolicy] at hm
  subst hu
  rcases hg with e | ⟨s, e, -⟩
  · cases e
    have := (exPerm_leaf hl).2
    cases this
    have hm := hk.1
    simp only [List.mem_singleton, Prod.mk.injEq] at hm
    obtain ⟨-, rfl⟩ := hm
    have hst : st = exPermStatement := by
      generalize hz : Val.list [Val.dict exPermStatement] = z at hs
      cases hs with
      | one => cases hz
      | elem h =>
        cases hz
        cases i with
        | zero => cases h; rfl
        | succ i => simp at h
      | nested h h' =>
        cases hz
        cases i with
        | zero => cases h
        | succ i => simp at h
    subst hst
    rcases exPerm_action ha with rfl | rfl
    · exact .inr ⟨_, _, exPerm_parts.1, .inr ⟨by decide +kernel, by decide +kernel⟩⟩
    · exact .inr ⟨_, _, exPerm_parts.2, .inr ⟨by decide +kernel, by decide +kernel⟩⟩
  · cases e

/-- the hypotheses of `C102_exact_partial` are met -/
example : ∃ l, permissions 2 (fun _ => none) exServices (exPermPolicy (.dict exPermStatement)) [] = .ok l :=
  have ⟨l, h, _⟩ := C102_exact_partial exServices (exPerm_good _) 0 [] (fun _ _ h => exPerm_plain _ h)
  ⟨l, h⟩

/-- those of `C102_sound_partial` are met by the same resource: an action without wildcards is simple -/
example {a s p : String} (h : ActionParts a s p) (h1 : '*' ∉ p.toList) (h2 : '?' ∉ p.toList) : SimpleAction a := .inr ⟨s, p, h, h2, .inl h1⟩

example : SimpleAction "s3:Get*" := .inr ⟨"s3", "Get*", ⟨by decide +kernel, by decide +kernel⟩, by decide +kernel, .inr (.inr (by decide +kernel))⟩

theorem exPerm_run : permissions 2 (fun _ => none) exServices (exPermPolicy (.dict exPermStatement)) [] =
    .ok [(.permission "GetObjects" "s3", [.str "PolicyDocument", .str "Statement", .int 0])] := by decide +kernel

/-- C102 in full, for an action: it has a finding if and only if there is no such action. -/
def C102_statement : Prop :=
  ∀ (raw : List (String × List String)) (a : String) (path : Path), (a = "*" ∨ ':' ∈ a.toList) →
    ∃ l, checkPermission (loadServiceMap raw) (.str a) path = .ok l ∧ ∀ f p, (f, p) ∈ l ↔ PermitFault raw a f ∧ p = path

/-- C102: an action whose text is in the middle of an action that exists is not reported. -/
theorem C102_violated : ¬ C102_statement := by
  intro h
  obtain ⟨l, h1, h2⟩ := h exServices "s3:bject*" [] (.inr (by decide +kernel))
  have h0 : checkPermission (loadServiceMap exServices) (.str "s3:bject*") [] = .ok [] := by decide +kernel
  rw [h0] at h1
  cases h1
  have := (h2 (.permission "bject*" "s3") []).2 ⟨⟨"s3", "bject*", ⟨by decide +kernel, by decide +kernel⟩, .inr ⟨⟨_, List.mem_cons_self, by decide +kernel⟩, by decide +kernel, ?_, rfl⟩⟩, rfl⟩
  · cases this
  · rintro ⟨x, ⟨e, he, -, y, hy, rfl⟩, hw⟩
    cases List.mem_singleton.1 he
    cases List.mem_singleton.1 hy
    rw [show (lower "bject*").toList = ['b', 'j', 'e', 'c', 't'] ++ ['*'] by decide +kernel] at hw
    obtain ⟨t', e, -⟩ := (wild_append (by decide) (by decide)).1 hw
    rw [show (lower "GetObject").toList = ['g', 'e', 't', 'o', 'b', 'j', 'e', 'c', 't'] by decide +kernel] at e
    simp at e

/-- C102: a star in the middle, and a question mark, are reported though they match an action. -/
theorem C102_wildcards_violated :
    (ServiceAction exServices "s3" "Get*ct" ∧
      checkPermission (loadServiceMap exServices) (.str "s3:Get*ct") [] = .ok [(.permission "Get*ct" "s3", [])]) ∧
    ServiceAction exServices "s3" "Get?bject" ∧
      checkPermission (loadServiceMap exServices) (.str "s3:Get?bject") [] = .ok [(.permission "Get?bject" "s3", [])] := by
  have hx : HasAction exServices "s3" "getobject" := ⟨_, List.mem_cons_self, by decide +kernel, "GetObject", List.mem_cons_self, by decide +kernel⟩
  refine ⟨⟨⟨_, hx, ?_⟩, by decide +kernel⟩, ⟨_, hx, ?_⟩, by decide +kernel⟩
  · rw [show (lower "Get*ct").toList = ['g', 'e', 't'] ++ '*' :: ['c', 't'] by decide +kernel]
    refine (wild_append (by decide) (by decide)).2 ⟨['o', 'b', 'j', 'e'] ++ ['c', 't'], by decide +kernel, .star _ ?_⟩
    exact (wild_plain (by decide) (by decide)).2 rfl
  · rw [show (lower "Get?bject").toList = ['g', 'e', 't'] ++ '?' :: ['b', 'j', 'e', 'c', 't'] by decide +kernel]
    refine (wild_append (by decide) (by decide)).2 ⟨'o' :: ['b', 'j', 'e', 'c', 't'], by decide +kernel, .any ?_⟩
    exact (wild_plain (by decide) (by decide)).2 rfl

/-- C102: a list of excluded actions is not looked at. -/
theorem C102_notaction_missed :
    permissions 2 (fun _ => none) exServices (exPermPolicy (.dict [(.str "NotAction", .list [.str "s3:Nothing"])])) [] = .ok [] := by decide +kernel

/-- C102: a statement that depends on a condition is not looked at. -/
theorem C102_condition_missed :
    permissions 2 (fun _ => none) exServices (exPermPolicy (fnIf (.str "C") (.dict [(.str "Action", .str "s3:Nothing")]) noValue)) [] = .ok [] := by
  decide +kernel

/-- C102: an action without a colon raises, and so does one that is given by a function. -/
theorem C102_raises :
    permissions 2 (fun _ => none) exServices (exPermPolicy (.dict [(.str "Action", .str "GetObject")])) [] =
      .error (.valueError "not enough values to unpack") ∧
    permissions 2 (fun _ => none) exServices (exPermPolicy (.dict [(.str "Action", .list [.dict [(.str "Fn::Sub", .str "s3:Get")]])])) [] =
      .error (.templateAttributeError "dict_node.split is invalid") := by
  constructor <;> decide +kernel

end CfnLint
