import Verif.Model.CondEquals
import Verif.Props.Conditions
import Verif.Props.Template
/-
C125. Loading the conditions of a template: what the table of comparisons holds, and when one comparison leaves the template without conditions.
-/
namespace CfnLint
open Spec

namespace Spec

/-- an object somewhere in a value has both texts and numbers as keys -/
def Mixed (v : Val) : Prop := ∃ p kvs s i x y, At v p (.dict kvs) ∧ (Key.str s, x) ∈ kvs ∧ (Key.int i, y) ∈ kvs

/-- a comparison of two values, somewhere in the condition `c` of the template -/
def Compares (t : Val) (c : Key) (a b : Val) : Prop :=
  ∃ p, At t (.str "Conditions" :: c :: p) (.list [a, b]) ∧ ∃ q, Key.str "Conditions" :: c :: p = q ++ [.str "Fn::Equals"]

/-- a side of a comparison that is hashed -/
def HashedSide (t : Val) (v : Val) : Prop := (∃ d, v = .dict d) ∧ ∃ c w, Compares t c v w ∨ Compares t c w v

/-- what the table holds for the other side -/
inductive OtherSide (H : Val → String) : Val → EqSide → Prop
  | fn (d) : OtherSide H (.dict d) (.hash (H (.dict d)))
  | text (s) : OtherSide H (.str s) (.text s)
  | int (i) : OtherSide H (.int i) (.text (pyStr (.int i)))
  | bool (b) : OtherSide H (.bool b) (.text (pyStr (.bool b)))
  | none : OtherSide H .none .nothing
  | flt (f) : OtherSide H (.flt f) .nothing
  | list (l) : OtherSide H (.list l) .nothing

end Spec

theorem mixed_list {xs : List Val} : Mixed (.list xs) ↔ ∃ v ∈ xs, Mixed v := by
  constructor
  · rintro ⟨p, kvs, s, i, x, y, h, h1, h2⟩
    generalize hg : Val.dict kvs = w at h
    cases h with
    | here => cases hg
    | idx hi h => subst hg; exact ⟨_, List.mem_of_getElem? hi, _, _, _, _, _, _, h, h1, h2⟩
  · rintro ⟨v, hv, p, kvs, s, i, x, y, h, h1, h2⟩
    obtain ⟨n, hn, rfl⟩ := List.mem_iff_getElem.1 hv
    exact ⟨.int n :: p, kvs, s, i, x, y, .idx (List.getElem?_eq_getElem hn) h, h1, h2⟩

theorem mixed_dict {kvs : List (Key × Val)} : Mixed (.dict kvs) ↔
    (∃ s i x y, (Key.str s, x) ∈ kvs ∧ (Key.int i, y) ∈ kvs) ∨ ∃ kv ∈ kvs, Mixed kv.2 := by
  constructor
  · rintro ⟨p, kvs', s, i, x, y, h, h1, h2⟩
    generalize hg : Val.dict kvs' = w at h
    cases h with
    | here => cases hg; exact .inl ⟨s, i, x, y, h1, h2⟩
    | key hk h => subst hg; exact .inr ⟨_, hk, _, _, _, _, _, _, h, h1, h2⟩
  · rintro (⟨s, i, x, y, h1, h2⟩ | ⟨⟨k, v⟩, hk, p, kvs', s, i, x, y, h, h1, h2⟩)
    · exact ⟨[], kvs, s, i, x, y, .here, h1, h2⟩
    · exact ⟨k :: p, kvs', s, i, x, y, .key hk h, h1, h2⟩

theorem mixed_scalar {v : Val} (h1 : ∀ d, v ≠ .dict d) (h2 : ∀ l, v ≠ .list l) : ¬ Mixed v := by
  rintro ⟨p, kvs, s, i, x, y, h, -, -⟩
  generalize hg : Val.dict kvs = w at h
  cases h with
  | here => exact h1 _ hg.symm
  | key => exact h1 _ rfl
  | idx => exact h2 _ rfl

theorem mixedKeys_iff (v : Val) : mixedKeys v = true ↔ Mixed v := by
  induction v using Val.ind with
  | hlist xs ih =>
    rw [mixed_list, mixedKeys]
    induction xs with
    | nil => simp [mixedKeysList]
    | cons x xs ihx =>
      rw [mixedKeysList, Bool.or_eq_true, ih x List.mem_cons_self, ihx (fun v hv => ih v (List.mem_cons_of_mem _ hv))]
      simp
  | hdict kvs ih =>
    rw [mixed_dict, mixedKeys, Bool.or_eq_true, Bool.and_eq_true, List.any_eq_true, List.any_eq_true]
    apply or_congr
    · constructor
      · rintro ⟨⟨⟨k, x⟩, hx, h1⟩, ⟨k', y⟩, hy, h2⟩
        cases k with
        | int => cases h1
        | str s => cases k' with
          | str => cases h2
          | int i => exact ⟨s, i, x, y, hx, hy⟩
      · rintro ⟨s, i, x, y, hx, hy⟩
        exact ⟨⟨_, hx, rfl⟩, ⟨_, hy, rfl⟩⟩
    · induction kvs with
      | nil => simp [mixedKeysDict]
      | cons kv kvs ihk =>
        obtain ⟨k, v⟩ := kv
        rw [mixedKeysDict, Bool.or_eq_true, ih (k, v) List.mem_cons_self, ihk (fun kv hk => ih kv (List.mem_cons_of_mem _ hk))]
        simp
  | hnone => exact ⟨fun h => (nomatch h), fun h => absurd h (mixed_scalar (fun _ h => nomatch h) (fun _ h => nomatch h))⟩
  | hbool b => exact ⟨fun h => (nomatch h), fun h => absurd h (mixed_scalar (fun _ h => nomatch h) (fun _ h => nomatch h))⟩
  | hint i => exact ⟨fun h => (nomatch h), fun h => absurd h (mixed_scalar (fun _ h => nomatch h) (fun _ h => nomatch h))⟩
  | hflt f => exact ⟨fun h => (nomatch h), fun h => absurd h (mixed_scalar (fun _ h => nomatch h) (fun _ h => nomatch h))⟩
  | hstr s => exact ⟨fun h => (nomatch h), fun h => absurd h (mixed_scalar (fun _ h => nomatch h) (fun _ h => nomatch h))⟩

theorem eqSide_spec {H : Val → String} (v : Val) : (∃ d, v = .dict d ∧ Mixed v ∧ ∃ m, eqSide H v = .error (.typeError m)) ∨
    ((∀ d, v = .dict d → ¬ Mixed v) ∧ ∃ s, eqSide H v = .ok s ∧ OtherSide H v s) := by
  cases v with
  | dict d =>
    by_cases h : Mixed (.dict d)
    · exact .inl ⟨d, rfl, h, _, by simp only [eqSide, getHash, (mixedKeys_iff _).2 h, if_true]; rfl⟩
    · refine .inr ⟨fun _ _ => h, .hash (H (.dict d)), ?_, .fn d⟩
      have : mixedKeys (.dict d) ≠ true := fun h' => h ((mixedKeys_iff _).1 h')
      simp only [eqSide, getHash, if_neg this]
  | str s => exact .inr ⟨fun _ h => (nomatch h), _, rfl, .text s⟩
  | int i => exact .inr ⟨fun _ h => (nomatch h), _, rfl, .int i⟩
  | bool b => exact .inr ⟨fun _ h => (nomatch h), _, rfl, .bool b⟩
  | none => exact .inr ⟨fun _ h => (nomatch h), _, rfl, .none⟩
  | flt f => exact .inr ⟨fun _ h => (nomatch h), _, rfl, .flt f⟩
  | list l => exact .inr ⟨fun _ h => (nomatch h), _, rfl, .list l⟩

theorem otherSide_det {H : Val → String} {v : Val} {s s' : EqSide} (h : OtherSide H v s) (h' : OtherSide H v s') : s = s' := by
  cases h <;> cases h' <;> rfl

theorem otherSide_hash {H : Val → String} {v : Val} {h : String} (hs : OtherSide H v (.hash h)) : (∃ d, v = .dict d) ∧ H v = h := by
  generalize hg : EqSide.hash h = s at hs
  cases hs <;> cases hg
  exact ⟨⟨_, rfl⟩, rfl⟩

/-- an entry of the table -/
def InTable (tb : EqTable) (h : String) (e : Key × EqSide) : Prop := ∃ es, dlookup h tb = some es ∧ e ∈ es

theorem eqEntry_in {c : Key} {side other : EqSide} {acc : EqTable} {h : String} {e : Key × EqSide} :
    InTable (eqEntry c side other acc) h e ↔ InTable acc h e ∨ (side = .hash h ∧ e = (c, other)) := by
  cases side with
  | text s => simp [eqEntry]
  | nothing => simp [eqEntry]
  | hash h' =>
    simp only [eqEntry, InTable, dlookup_dset, EqSide.hash.injEq]
    by_cases hh : h' = h
    · subst hh
      simp only [if_true, Option.some.injEq, exists_eq_left', List.mem_append, List.mem_singleton, true_and]
      cases dlookup h' acc <;> simp
    · simp [hh]

/-- the comparison found at a place -/
def FoundComparison (l : List (Path × Val)) (c : Key) (a b : Val) : Prop := ∃ p, (Key.str "Conditions" :: c :: p, Val.list [a, b]) ∈ l

/-- a side that cannot be hashed -/
def BadSide (v : Val) : Prop := (∃ d, v = .dict d) ∧ Mixed v

theorem conditionEquals_spec {H : Val → String} : ∀ (l : List (Path × Val)) (acc : EqTable),
    ((∃ m, conditionEquals H l acc = .error (.typeError m)) ∧ ∃ c a b, FoundComparison l c a b ∧ (BadSide a ∨ BadSide b)) ∨
    (∃ tb, conditionEquals H l acc = .ok tb ∧ (∀ c a b, FoundComparison l c a b → ¬ BadSide a ∧ ¬ BadSide b) ∧
      ∀ h e, InTable tb h e ↔ InTable acc h e ∨ ∃ c a b, FoundComparison l c a b ∧
        ((OtherSide H a (.hash h) ∧ ∃ o, OtherSide H b o ∧ e = (c, o)) ∨ (OtherSide H b (.hash h) ∧ ∃ o, OtherSide H a o ∧ e = (c, o))))
  | [], acc => by
    refine .inr ⟨acc, rfl, ?_, ?_⟩
    · rintro c a b ⟨p, h⟩; cases h
    · intro h e
      constructor
      · exact .inl
      · rintro (h | ⟨c, a, b, ⟨p, h⟩, -⟩)
        · exact h
        · cases h
  | f :: rest, acc => by
    by_cases hf : ∃ c p a b, f = (Key.str "Conditions" :: c :: p, Val.list [a, b])
    · obtain ⟨c, p, a, b, rfl⟩ := hf
      have hfound : FoundComparison ((Key.str "Conditions" :: c :: p, Val.list [a, b]) :: rest) c a b := ⟨p, List.mem_cons_self⟩
      have hstep : ∀ c' a' b', FoundComparison ((Key.str "Conditions" :: c :: p, Val.list [a, b]) :: rest) c' a' b' ↔
          (c' = c ∧ a' = a ∧ b' = b) ∨ FoundComparison rest c' a' b' := by
        intro c' a' b'
        constructor
        · rintro ⟨p', h⟩
          rcases List.mem_cons.1 h with h | h
          · simp only [Prod.mk.injEq, List.cons.injEq, true_and, Val.list.injEq, and_true] at h
            exact .inl ⟨h.1.1, h.2.1, h.2.2⟩
          · exact .inr ⟨p', h⟩
        · rintro (⟨rfl, rfl, rfl⟩ | ⟨p', h⟩)
          · exact hfound
          · exact ⟨p', List.mem_cons_of_mem _ h⟩
      simp only [conditionEquals]
      rcases eqSide_spec (H := H) a with ⟨d, hd, hm, m, ha⟩ | ⟨hna, s1, ha, hs1⟩
      · rw [ha]
        exact .inl ⟨⟨m, rfl⟩, c, a, b, hfound, .inl ⟨⟨d, hd⟩, hm⟩⟩
      · rw [ha]
        dsimp only
        rcases eqSide_spec (H := H) b with ⟨d, hd, hm, m, hb⟩ | ⟨hnb, s2, hb, hs2⟩
        · rw [hb]
          exact .inl ⟨⟨m, rfl⟩, c, a, b, hfound, .inr ⟨⟨d, hd⟩, hm⟩⟩
        · rw [hb]
          dsimp only
          rcases conditionEquals_spec (H := H) rest (eqEntry c s2 s1 (eqEntry c s1 s2 acc)) with ⟨he, c', a', b', hf', hbad⟩ | ⟨tb, hok, hgood, hin⟩
          · exact .inl ⟨he, c', a', b', (hstep _ _ _).2 (.inr hf'), hbad⟩
          · refine .inr ⟨tb, hok, ?_, ?_⟩
            · intro c' a' b' h
              rcases (hstep _ _ _).1 h with ⟨rfl, rfl, rfl⟩ | h
              · exact ⟨fun ⟨⟨d, hd⟩, hm⟩ => hna d hd hm, fun ⟨⟨d, hd⟩, hm⟩ => hnb d hd hm⟩
              · exact hgood _ _ _ h
            · intro h e
              rw [hin, eqEntry_in, eqEntry_in]
              constructor
              · rintro (((h0 | ⟨rfl, rfl⟩) | ⟨rfl, rfl⟩) | ⟨c', a', b', hf', h0⟩)
                · exact .inl h0
                · exact .inr ⟨c, a, b, hfound, .inl ⟨hs1, _, hs2, rfl⟩⟩
                · exact .inr ⟨c, a, b, hfound, .inr ⟨hs2, _, hs1, rfl⟩⟩
                · exact .inr ⟨c', a', b', (hstep _ _ _).2 (.inr hf'), h0⟩
              · rintro (h0 | ⟨c', a', b', hf', h0⟩)
                · exact .inl (.inl (.inl h0))
                · rcases (hstep _ _ _).1 hf' with ⟨rfl, rfl, rfl⟩ | hf'
                  · rcases h0 with ⟨h1, o, h2, rfl⟩ | ⟨h1, o, h2, rfl⟩
                    · exact .inl (.inl (.inr ⟨otherSide_det hs1 h1, by rw [otherSide_det hs2 h2]⟩))
                    · exact .inl (.inr ⟨otherSide_det hs2 h1, by rw [otherSide_det hs1 h2]⟩)
                  · exact .inr ⟨c', a', b', hf', h0⟩
    · have hskip : conditionEquals H (f :: rest) acc = conditionEquals H rest acc := by
        rw [conditionEquals.eq_def]
        split
        · rename_i h; cases h
        · rename_i h; cases h; exact absurd ⟨_, _, _, _, rfl⟩ hf
        · rename_i h; cases h; rfl
      have hstep : ∀ c' a' b', FoundComparison (f :: rest) c' a' b' ↔ FoundComparison rest c' a' b' := by
        intro c' a' b'
        constructor
        · rintro ⟨p', h⟩
          rcases List.mem_cons.1 h with h | h
          · exact absurd ⟨_, _, _, _, h.symm⟩ hf
          · exact ⟨p', h⟩
        · rintro ⟨p', h⟩; exact ⟨p', List.mem_cons_of_mem _ h⟩
      rw [hskip]
      simp only [hstep]
      exact conditionEquals_spec rest acc

theorem found_compares {t : Val} {c : Key} {a b : Val} : FoundComparison (searchDeepKeys "Fn::Equals" t (.dict [])) c a b ↔ Compares t c a b := by
  have hno : ∀ p w, p ≠ [] → ¬ At (.dict []) p w := by
    intro p w hp h
    generalize hg : Val.dict [] = v at h
    cases h with
    | here => exact hp rfl
    | key hk => cases hg; cases hk
    | idx => cases hg
  unfold FoundComparison Compares
  constructor
  · rintro ⟨p, h⟩
    rw [C27_search_exact] at h
    rcases h with ⟨h | h, hq⟩
    · exact ⟨p, h, hq⟩
    · exact absurd h (hno _ _ (by simp))
  · rintro ⟨p, h, hq⟩
    exact ⟨p, (C27_search_exact _ _ _ _ _).2 ⟨.inl h, hq⟩⟩

/-- **C125** (one bad comparison). If anywhere in the conditions a function is compared that holds an object with both texts and numbers as keys, the template is left
without any conditions and parameters; otherwise they are what Model/Conditions says. -/
theorem C125_load (H : Val → String) (fuel : Nat) (t : Val) :
    ((∃ v, HashedSide t v ∧ Mixed v) → ∃ m, Conditions.load H fuel t = ({}, [], some (.typeError m))) ∧
    ((∀ v, HashedSide t v → ¬ Mixed v) → ∃ tb, Conditions.load H fuel t = ((Conditions.init H fuel t).1, tb, (Conditions.init H fuel t).2)) := by
  unfold Conditions.load
  rcases conditionEquals_spec (H := H) (searchDeepKeys "Fn::Equals" t (.dict [])) [] with ⟨⟨m, he⟩, c, a, b, hf, hbad⟩ | ⟨tb, hok, hgood, -⟩
  · rw [he]
    refine ⟨fun _ => ⟨m, rfl⟩, fun h => ?_⟩
    rw [found_compares] at hf
    rcases hbad with ⟨hd, hm⟩ | ⟨hd, hm⟩
    · exact absurd hm (h a ⟨hd, c, b, .inl hf⟩)
    · exact absurd hm (h b ⟨hd, c, a, .inr hf⟩)
  · rw [hok]
    refine ⟨fun ⟨v, ⟨hd, c, w, hc⟩, hm⟩ => ?_, fun _ => ⟨tb, rfl⟩⟩
    exfalso
    rcases hc with hc | hc
    · exact (hgood _ _ _ (found_compares.2 hc)).1 ⟨hd, hm⟩
    · exact (hgood _ _ _ (found_compares.2 hc)).2 ⟨hd, hm⟩

/-- **C125** (table). The table of comparisons holds, for the hash of a function, exactly the conditions in which it is compared, each with the other side. -/
theorem C125_table {H : Val → String} {fuel : Nat} {t : Val} {ct : CondTable} {tb : EqTable} {e : Option PyErr} (h : Conditions.load H fuel t = (ct, tb, e))
    (hgood : ∀ v, HashedSide t v → ¬ Mixed v) (hash : String) (c : Key) (o : EqSide) :
    (∃ es, dlookup hash tb = some es ∧ (c, o) ∈ es) ↔
      ∃ d w, H (.dict d) = hash ∧ OtherSide H w o ∧ (Compares t c (.dict d) w ∨ Compares t c w (.dict d)) := by
  unfold Conditions.load at h
  rcases conditionEquals_spec (H := H) (searchDeepKeys "Fn::Equals" t (.dict [])) [] with ⟨⟨m, he⟩, c, a, b, hf, hbad⟩ | ⟨tb', hok, -, hin⟩
  · exfalso
    rw [found_compares] at hf
    rcases hbad with ⟨hd, hm⟩ | ⟨hd, hm⟩
    · exact hgood a ⟨hd, c, b, .inl hf⟩ hm
    · exact hgood b ⟨hd, c, a, .inr hf⟩ hm
  · rw [hok] at h
    simp only [Prod.mk.injEq] at h
    obtain ⟨-, rfl, -⟩ := h
    have := hin hash (c, o)
    unfold InTable at this
    rw [this]
    simp only [found_compares]
    constructor
    · rintro (⟨es, h, -⟩ | ⟨c', a, b, hc, h⟩)
      · cases h
      · rcases h with ⟨h1, o', h2, h3⟩ | ⟨h1, o', h2, h3⟩ <;> cases h3
        · obtain ⟨⟨d, rfl⟩, h1⟩ := otherSide_hash h1
          exact ⟨d, b, h1, h2, .inl hc⟩
        · obtain ⟨⟨d, rfl⟩, h1⟩ := otherSide_hash h1
          exact ⟨d, a, h1, h2, .inr hc⟩
    · rintro ⟨d, w, rfl, ho, hc | hc⟩
      · exact .inr ⟨c, _, _, hc, .inl ⟨.fn d, o, ho, rfl⟩⟩
      · exact .inr ⟨c, _, _, hc, .inr ⟨.fn d, o, ho, rfl⟩⟩

/-- The full statement of the last part of C125: when all conditions of a template are well formed and all its parameters are objects, everything is loaded within some
recursion limit. -/
def C125_loads_statement : Prop :=
  ∀ (H : Val → String) (t conds : List (Key × Val)), (Val.dict t).WF → dlookup (.str "Conditions") t = some (.dict conds) →
    (∀ c v, dlookup c conds = some v → WellFormed conds v) →
    (dlookup (.str "Parameters") t = none ∨ ∃ ps, dlookup (.str "Parameters") t = some (.dict ps) ∧ ∀ kv ∈ ps, ∃ body, kv.2 = .dict body) →
    ∃ n0, ∀ fuel ≥ n0, (Conditions.load H fuel (.dict t)).2.2 = none ∧
      ∀ c, (∃ v, dlookup c conds = some v) → ∃ r, dlookup c (Conditions.load H fuel (.dict t)).1.conds = some r

/-- a function whose argument has a text and a number as keys -/
def exMixedArg : Val := .dict [(.str "Fn::Transform", .dict [(.int 1, .str "x"), (.str "b", .str "y")])]

/-- a template with a good condition and one that compares such a function -/
def exMixedKeys : List (Key × Val) :=
  [(.str "Conditions", .dict [(.str "Good", exEquals (refTo (.str "P")) (.str "a")), (.str "Odd", exEquals exMixedArg (.str "a"))])]

/-- **C125** fails: one function with such an argument leaves the template without any condition, the good ones included. -/
theorem C125_loads_violated : ¬ C125_loads_statement := by
  intro h
  obtain ⟨n0, h⟩ := h (fun _ => "#") exMixedKeys _ (by simp [exMixedKeys, exMixedArg, exEquals, refTo, Key.toVal, Val.WF, Val.WFDict, Val.WFList]) rfl (by
      intro c v hv σ
      have hm := dlookup_mem hv
      simp only [List.mem_cons, Prod.mk.injEq, List.not_mem_nil, or_false] at hm
      rcases hm with ⟨_, rfl⟩ | ⟨_, rfl⟩
      · exact ⟨_, .equals (.inl ⟨⟨_, _, rfl⟩, trivial⟩) .expr (.lit rfl)⟩
      · exact ⟨_, .equals (.inl ⟨⟨_, _, rfl⟩, trivial⟩) .expr (.lit rfl)⟩) (.inl rfl)
  obtain ⟨m, hm⟩ := (C125_load (fun _ => "#") n0 (.dict exMixedKeys)).1 ⟨exMixedArg, ⟨⟨_, rfl⟩, .str "Odd", .str "a", .inl
    ⟨[.str "Fn::Equals"], .key (List.mem_cons_self) (.key (List.mem_cons_of_mem _ List.mem_cons_self) (.key List.mem_cons_self .here)), ⟨[.str "Conditions", .str "Odd"], rfl⟩⟩⟩,
    [.str "Fn::Transform"], _, "b", 1, .str "y", .str "x", .key List.mem_cons_self .here, by simp, by simp⟩
  have := (h n0 (Nat.le_refl _)).1
  rw [hm] at this
  cases this

/-- **C125** (part). When no compared function holds an object with both texts and numbers as keys, well formed conditions are all loaded. -/
theorem C125_loads_partial (H : Val → String) (t conds : List (Key × Val))
    (ht : dlookup (.str "Conditions") t = some (.dict conds)) (hc : ∀ c v, dlookup c conds = some v → WellFormed conds v)
    (hp : dlookup (.str "Parameters") t = none ∨ ∃ ps, dlookup (.str "Parameters") t = some (.dict ps) ∧ ∀ kv ∈ ps, ∃ body, kv.2 = .dict body)
    (hm : ∀ v, HashedSide (.dict t) v → ¬ Mixed v) :
    ∃ n0, ∀ fuel ≥ n0, (Conditions.load H fuel (.dict t)).2.2 = none ∧
      ∀ c, (∃ v, dlookup c conds = some v) → ∃ r, dlookup c (Conditions.load H fuel (.dict t)).1.conds = some r := by
  obtain ⟨n0, h⟩ := C25_load_partial H t conds ht hc hp
  refine ⟨n0, fun fuel hf => ?_⟩
  obtain ⟨ct, hi, hall⟩ := h fuel hf
  obtain ⟨tb, hl⟩ := (C125_load H fuel (.dict t)).2 hm
  rw [hl, hi]
  exact ⟨rfl, hall⟩

/-- **C125** (transfer). A template whose conditions were loaded without an exception has the conditions of Model/Conditions, so that everything proved there applies. -/
theorem C125_transfer {H : Val → String} {fuel : Nat} {t : Val} {ct : CondTable} {tb : EqTable} (h : Conditions.load H fuel t = (ct, tb, none)) :
    Conditions.init H fuel t = (ct, none) ∧ ∀ v, HashedSide t v → ¬ Mixed v := by
  by_cases hm : ∃ v, HashedSide t v ∧ Mixed v
  · obtain ⟨m, hm⟩ := (C125_load H fuel t).1 hm
    rw [hm] at h; cases h
  · have hm' : ∀ v, HashedSide t v → ¬ Mixed v := fun v h1 h2 => hm ⟨v, h1, h2⟩
    obtain ⟨tb', hl⟩ := (C125_load H fuel t).2 hm'
    rw [hl] at h
    simp only [Prod.mk.injEq] at h
    exact ⟨Prod.ext h.1 h.2.2, hm'⟩

/-- the hypotheses of `C125_loads_partial`, `C125_table` and `C125_transfer` can be met -/
example : ∃ ct tb, Conditions.load exHash 5 (.dict exOne) = (ct, tb, none) := ⟨_, _, by
  rw [Conditions.load]
  rfl⟩

end CfnLint
