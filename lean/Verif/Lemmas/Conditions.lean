import Verif.Model.Conditions
import Verif.Spec.Conditions
import Verif.Lemmas.Dict
namespace CfnLint
open Spec

/-! ### Evaluation of parsed conditions -/

mutual
/-- Truth value of a parsed condition when each comparison `e` has the truth value `β e`. -/
def CObj.ev (β : CEquals → Bool) : CObj → Bool
  | .equals e => β e
  | .cond (a :: as) _ _ _ => CObj.evAll β (a :: as)
  | .cond [] (o :: os) _ _ => CObj.evAny β (o :: os)
  | .cond [] [] (n :: _) _ => !CObj.ev β n
  | .cond [] [] [] (some e) => β e
  | .cond [] [] [] none => false
def CObj.evAll (β : CEquals → Bool) : List CObj → Bool
  | [] => true
  | a :: as => CObj.ev β a && CObj.evAll β as
def CObj.evAny (β : CEquals → Bool) : List CObj → Bool
  | [] => false
  | a :: as => CObj.ev β a || CObj.evAny β as
end

mutual
/-- No part that evaluation may reach was left unparsed. -/
def CObj.complete : CObj → Bool
  | .equals _ => true
  | .cond (a :: as) _ _ _ => CObj.completeAll (a :: as)
  | .cond [] (o :: os) _ _ => CObj.completeAll (o :: os)
  | .cond [] [] (n :: _) _ => CObj.complete n
  | .cond [] [] [] (some _) => true
  | .cond [] [] [] none => false
def CObj.completeAll : List CObj → Bool
  | [] => true
  | a :: as => CObj.complete a && CObj.completeAll as
end

mutual
/-- The comparisons inside a parsed condition. -/
def CObj.eqs : CObj → List CEquals
  | .equals e => [e]
  | .cond a o n e => CObj.eqsAll a ++ (CObj.eqsAll o ++ (CObj.eqsAll n ++ e.toList))
def CObj.eqsAll : List CObj → List CEquals
  | [] => []
  | a :: as => CObj.eqs a ++ CObj.eqsAll as
end

theorem mem_eqsAll {e : CEquals} : ∀ {l : List CObj}, e ∈ CObj.eqsAll l ↔ ∃ o ∈ l, e ∈ o.eqs := by
  intro l
  induction l with
  | nil => simp [CObj.eqsAll]
  | cons a as ih => simp [CObj.eqsAll, ih]

theorem evAll_eq (β : CEquals → Bool) : ∀ l, CObj.evAll β l = l.all (CObj.ev β)
  | [] => rfl
  | a :: as => by rw [CObj.evAll, evAll_eq β as]; rfl

theorem evAny_eq (β : CEquals → Bool) : ∀ l, CObj.evAny β l = l.any (CObj.ev β)
  | [] => rfl
  | a :: as => by rw [CObj.evAny, evAny_eq β as]; rfl

theorem completeAll_eq : ∀ l, CObj.completeAll l = l.all CObj.complete
  | [] => rfl
  | a :: as => by rw [CObj.completeAll, completeAll_eq as]; rfl

mutual
/-- If every comparison has a definite result, so has the condition. -/
theorem test_ev (sc : EqScenario) (β : CEquals → Bool) : (o : CObj) →
    (∀ e ∈ o.eqs, e.test sc = some (β e)) → o.complete = true →
    o.test sc = .ok (some (o.ev β))
  | .equals e, h, _ => by
      rw [CObj.test, CObj.ev, h e (by simp [CObj.eqs])]
  | .cond (a :: as) o n e, h, hc => by
      rw [CObj.test, CObj.ev]
      exact testAnd_ev sc β (a :: as) (fun e he => h e (by rw [CObj.eqs]; exact List.mem_append_left _ he))
        (by simpa [CObj.complete] using hc)
  | .cond [] (x :: xs) n e, h, hc => by
      rw [CObj.test, CObj.ev]
      exact testOr_ev sc β (x :: xs) (fun e he => h e (by
        rw [CObj.eqs]; exact List.mem_append_right _ (List.mem_append_left _ he)))
        (by simpa [CObj.complete] using hc)
  | .cond [] [] (x :: xs) e, h, hc => by
      rw [CObj.test, CObj.ev]
      rw [test_ev sc β x (fun e he => h e (by
        simp only [CObj.eqs, CObj.eqsAll, List.nil_append, List.mem_append]; exact .inl (.inl he)))
        (by simpa [CObj.complete] using hc)]
      simp only
      cases CObj.ev β x <;> rfl
  | .cond [] [] [] (some e), h, hc => by
      rw [CObj.test, CObj.ev, h e (by simp [CObj.eqs, CObj.eqsAll])]
  | .cond [] [] [] none, h, hc => by simp [CObj.complete] at hc
theorem testAnd_ev (sc : EqScenario) (β : CEquals → Bool) : (l : List CObj) →
    (∀ e ∈ CObj.eqsAll l, e.test sc = some (β e)) → CObj.completeAll l = true →
    CObj.testAnd sc l = .ok (some (CObj.evAll β l))
  | [], _, _ => rfl
  | a :: as, h, hc => by
      rw [CObj.completeAll, Bool.and_eq_true] at hc
      rw [CObj.testAnd, CObj.evAll]
      rw [test_ev sc β a (fun e he => h e (by rw [CObj.eqsAll]; exact List.mem_append_left _ he)) hc.1]
      have ih := testAnd_ev sc β as
        (fun e he => h e (by rw [CObj.eqsAll]; exact List.mem_append_right _ he)) hc.2
      cases hev : CObj.ev β a
      · rfl
      · simp [ih]
theorem testOr_ev (sc : EqScenario) (β : CEquals → Bool) : (l : List CObj) →
    (∀ e ∈ CObj.eqsAll l, e.test sc = some (β e)) → CObj.completeAll l = true →
    CObj.testOr sc l = .ok (some (CObj.evAny β l))
  | [], _, _ => rfl
  | a :: as, h, hc => by
      rw [CObj.completeAll, Bool.and_eq_true] at hc
      rw [CObj.testOr, CObj.evAny]
      rw [test_ev sc β a (fun e he => h e (by rw [CObj.eqsAll]; exact List.mem_append_left _ he)) hc.1]
      have ih := testOr_ev sc β as
        (fun e he => h e (by rw [CObj.eqsAll]; exact List.mem_append_right _ he)) hc.2
      cases hev : CObj.ev β a
      · simp [ih]
      · rfl
end

mutual
/-- Scenarios that no comparison distinguishes give the same result. -/
theorem test_congr (sc sc' : EqScenario) : (o : CObj) →
    (∀ e ∈ o.eqs, e.test sc = e.test sc') → o.test sc = o.test sc'
  | .equals e, h => by rw [CObj.test, CObj.test, h e (by simp [CObj.eqs])]
  | .cond (a :: as) o n e, h => by
      rw [CObj.test, CObj.test]
      exact testAnd_congr sc sc' (a :: as)
        (fun e he => h e (by rw [CObj.eqs]; exact List.mem_append_left _ he))
  | .cond [] (x :: xs) n e, h => by
      rw [CObj.test, CObj.test]
      exact testOr_congr sc sc' (x :: xs) (fun e he => h e (by
        rw [CObj.eqs]; exact List.mem_append_right _ (List.mem_append_left _ he)))
  | .cond [] [] (x :: xs) e, h => by
      rw [CObj.test, CObj.test]
      rw [test_congr sc sc' x (fun e he => h e (by
        simp only [CObj.eqs, CObj.eqsAll, List.nil_append, List.mem_append]; exact .inl (.inl he)))]
  | .cond [] [] [] (some e), h => by
      rw [CObj.test, CObj.test, h e (by simp [CObj.eqs, CObj.eqsAll])]
  | .cond [] [] [] none, h => by rw [CObj.test, CObj.test]
theorem testAnd_congr (sc sc' : EqScenario) : (l : List CObj) →
    (∀ e ∈ CObj.eqsAll l, e.test sc = e.test sc') → CObj.testAnd sc l = CObj.testAnd sc' l
  | [], _ => rfl
  | a :: as, h => by
      rw [CObj.testAnd, CObj.testAnd]
      rw [test_congr sc sc' a (fun e he => h e (by rw [CObj.eqsAll]; exact List.mem_append_left _ he)),
        testAnd_congr sc sc' as (fun e he => h e (by rw [CObj.eqsAll]; exact List.mem_append_right _ he))]
theorem testOr_congr (sc sc' : EqScenario) : (l : List CObj) →
    (∀ e ∈ CObj.eqsAll l, e.test sc = e.test sc') → CObj.testOr sc l = CObj.testOr sc' l
  | [], _ => rfl
  | a :: as, h => by
      rw [CObj.testOr, CObj.testOr]
      rw [test_congr sc sc' a (fun e he => h e (by rw [CObj.eqsAll]; exact List.mem_append_left _ he)),
        testOr_congr sc sc' as (fun e he => h e (by rw [CObj.eqsAll]; exact List.mem_append_right _ he))]
end

/-! ### Influences -/

/-- `x` is in the set stored for `h`. -/
def InInfl (infl : Infl) (h x : String) : Prop := x ∈ (dlookup h infl).getD []

/-- the keys of the influences are distinct hashes and every stored set is non-empty and duplicate free -/
structure InflWF (H : Val → String) (infl : Infl) : Prop where
  nodup : (infl.map Prod.fst).Nodup
  sets : ∀ kv ∈ infl, kv.2.Nodup
  nonempty : ∀ kv ∈ infl, kv.2 ≠ []
  hashes : ∀ kv ∈ infl, ∃ x, kv.1 = H x

theorem mem_setAdd {x y : String} {s : List String} : y ∈ setAdd x s ↔ y = x ∨ y ∈ s := by
  unfold setAdd
  split
  · constructor
    · exact .inr
    · rintro (rfl | h) <;> assumption
  · simp [or_comm]

theorem mem_setAdds {y : String} : ∀ {xs s : List String},
    y ∈ xs.foldl (fun s x => setAdd x s) s ↔ y ∈ xs ∨ y ∈ s := by
  intro xs
  induction xs with
  | nil => simp
  | cons x xs ih => intro s; simp [ih, mem_setAdd]; grind

theorem setAdd_nodup {x : String} {s : List String} (h : s.Nodup) : (setAdd x s).Nodup := by
  unfold setAdd
  split
  · exact h
  · next hx =>
    rw [List.nodup_append]
    refine ⟨h, by simp, ?_⟩
    intro a ha b hb
    simp at hb
    subst hb
    rintro rfl
    exact hx ha

theorem setAdds_nodup : ∀ {xs s : List String}, s.Nodup →
    (xs.foldl (fun s x => setAdd x s) s).Nodup := by
  intro xs
  induction xs with
  | nil => intro s h; exact h
  | cons x xs ih => intro s h; exact ih (setAdd_nodup h)

theorem inInfl_inflAdd {k : String} {xs : List String} {infl : Infl} {h x : String} :
    InInfl (inflAdd k xs infl) h x ↔ (h = k ∧ x ∈ xs) ∨ InInfl infl h x := by
  unfold InInfl inflAdd
  rw [dlookup_dset]
  by_cases hk : h = k
  · subst hk
    simp only [if_true, Option.getD_some, mem_setAdds, true_and]
  · have : ¬ k = h := fun e => hk e.symm
    simp [this, hk]

theorem key_inflAdd {k : String} {xs : List String} {infl : Infl} {h : String} :
    h ∈ (inflAdd k xs infl).map Prod.fst ↔ h = k ∨ h ∈ infl.map Prod.fst := by
  rw [← dhas_iff, ← dhas_iff]
  unfold dhas inflAdd
  rw [dlookup_dset]
  by_cases hk : h = k
  · subst hk; simp
  · have : ¬ k = h := fun e => hk e.symm
    simp [this, hk]

theorem inInfl_merge {child : Infl} : ∀ {infl : Infl} {h x : String}, (child.map Prod.fst).Nodup →
    (InInfl (inflMerge child infl) h x ↔ InInfl child h x ∨ InInfl infl h x) := by
  induction child with
  | nil => intro infl h x _; simp [inflMerge, InInfl, dlookup]
  | cons kv rest ih =>
    intro infl h x hn
    obtain ⟨k, vs⟩ := kv
    simp only [List.map_cons, List.nodup_cons] at hn
    have := ih (infl := inflAdd k vs infl) (h := h) (x := x) hn.2
    unfold inflMerge at this ⊢
    rw [List.foldl_cons, this, inInfl_inflAdd]
    have hk : ∀ y, ¬ InInfl rest k y := by
      intro y hy
      unfold InInfl at hy
      cases hd : dlookup k rest with
      | none => rw [hd] at hy; simp at hy
      | some s => exact hn.1 (List.mem_map.2 ⟨_, dlookup_mem hd, rfl⟩)
    unfold InInfl at hk ⊢
    simp only [dlookup]
    by_cases hkh : k = h
    · subst hkh
      simp only [if_true, Option.getD_some, true_and]
      have := hk x
      simp [this]
    · have : ¬ h = k := fun e => hkh e.symm
      simp [hkh, this]

theorem key_merge {child : Infl} : ∀ {infl : Infl} {h : String},
    (h ∈ (inflMerge child infl).map Prod.fst ↔ h ∈ child.map Prod.fst ∨ h ∈ infl.map Prod.fst) := by
  induction child with
  | nil => intro infl h; simp [inflMerge]
  | cons kv rest ih =>
    intro infl h
    have := ih (infl := inflAdd kv.1 kv.2 infl) (h := h)
    unfold inflMerge at this ⊢
    rw [List.foldl_cons, this, key_inflAdd]
    simp only [List.map_cons, List.mem_cons]
    grind

theorem inflWF_add {H : Val → String} {k : String} {xs : List String} {infl : Infl} (h : InflWF H infl)
    (hk : ∃ x, k = H x) (hx : xs ≠ []) : InflWF H (inflAdd k xs infl) := by
  have key : ∀ kv ∈ inflAdd k xs infl, kv.2.Nodup ∧ kv.2 ≠ [] ∧ ∃ x, kv.1 = H x := by
    intro kv hkv
    unfold inflAdd at hkv
    have hl := dlookup_of_mem (dset_nodup k
      (xs.foldl (fun s x => setAdd x s) ((dlookup k infl).getD [])) h.nodup) hkv
    rw [dlookup_dset] at hl
    split at hl
    · next he =>
      simp only [Option.some.injEq] at hl
      rw [← hl, ← he]
      refine ⟨setAdds_nodup ?_, ?_, hk⟩
      · cases hd : dlookup k infl with
        | none => simp
        | some s => exact h.sets _ (dlookup_mem hd)
      · obtain ⟨y, ys, rfl⟩ := List.exists_cons_of_ne_nil hx
        exact List.ne_nil_of_mem (mem_setAdds.2 (.inl List.mem_cons_self))
    · have := dlookup_mem hl
      exact ⟨h.sets _ this, h.nonempty _ this, h.hashes _ this⟩
  exact ⟨by unfold inflAdd; exact dset_nodup _ _ h.nodup, fun kv h => (key kv h).1,
    fun kv h => (key kv h).2.1, fun kv h => (key kv h).2.2⟩

theorem inflWF_merge {H : Val → String} {child : Infl} : ∀ {infl : Infl}, InflWF H child → InflWF H infl →
    InflWF H (inflMerge child infl) := by
  induction child with
  | nil => intro infl _ h; exact h
  | cons kv rest ih =>
    intro infl hc h
    refine ih ⟨(List.nodup_cons.1 hc.nodup).2, fun kv h => hc.sets kv (List.mem_cons_of_mem _ h),
      fun kv h => hc.nonempty kv (List.mem_cons_of_mem _ h),
      fun kv h => hc.hashes kv (List.mem_cons_of_mem _ h)⟩
      (inflWF_add h (hc.hashes _ List.mem_cons_self) (hc.nonempty _ List.mem_cons_self))

theorem inflWF_nil {H : Val → String} : InflWF H [] := ⟨by simp, by simp, by simp, by simp⟩

/-- An operand is either the hash of an expression or a text that is not the hash of one. -/
def Sep (H : Val → String) (v : EqV) : Prop :=
  (∃ x, v = { fn := some (H x) }) ∨ (∃ s, v = { str := some s } ∧ ∀ x, H x ≠ s)

theorem sep_other {H : Val → String} {v : EqV} (h : Sep H v) : v.other ≠ [] := by
  rcases h with ⟨x, rfl⟩ | ⟨s, rfl, _⟩ <;> simp [EqV.other]

theorem sep_fn {H : Val → String} {v : EqV} {l : String} (h : Sep H v) (hl : v.fn = some l) :
    ∃ x, l = H x := by
  rcases h with ⟨x, rfl⟩ | ⟨s, rfl, _⟩
  · simp only [Option.some.injEq] at hl; exact ⟨x, hl.symm⟩
  · cases hl

/-- The comparison is recorded in the influences. -/
def Covered (infl : Infl) (e : CEquals) : Prop :=
  (∀ l, e.left.fn = some l → ∀ x ∈ e.right.other, InInfl infl l x) ∧
  (∀ r, e.right.fn = some r → ∀ x ∈ e.left.other, InInfl infl r x)

theorem inflWF_equal {H : Val → String} {e : CEquals} {infl : Infl} (h : InflWF H infl)
    (hl : Sep H e.left) (hr : Sep H e.right) : InflWF H (inflEqual e infl) := by
  unfold inflEqual
  simp only
  cases h1 : e.left.fn <;> cases h2 : e.right.fn <;> simp only
  · exact h
  · exact inflWF_add h (sep_fn hr h2) (sep_other hl)
  · exact inflWF_add h (sep_fn hl h1) (sep_other hr)
  · exact inflWF_add (inflWF_add h (sep_fn hl h1) (sep_other hr)) (sep_fn hr h2) (sep_other hl)

theorem inInfl_equal {e : CEquals} {infl : Infl} {h x : String} :
    InInfl (inflEqual e infl) h x ↔ (e.left.fn = some h ∧ x ∈ e.right.other) ∨
      (e.right.fn = some h ∧ x ∈ e.left.other) ∨ InInfl infl h x := by
  unfold inflEqual
  simp only
  cases hl : e.left.fn <;> cases hr : e.right.fn <;> simp only [inInfl_inflAdd]
  · simp
  · simp [eq_comm]
  · simp [eq_comm]
  · simp only [Option.some.injEq, eq_comm (a := h)]
    grind

theorem covered_equal (e : CEquals) (infl : Infl) : Covered (inflEqual e infl) e := by
  constructor
  · intro l hl x hx; rw [inInfl_equal]; exact .inl ⟨hl, hx⟩
  · intro r hr x hx; rw [inInfl_equal]; exact .inr (.inl ⟨hr, hx⟩)

theorem covered_mono {infl infl' : Infl} {e : CEquals}
    (h : ∀ k x, InInfl infl k x → InInfl infl' k x) (hc : Covered infl e) : Covered infl' e :=
  ⟨fun l hl x hx => h _ _ (hc.1 l hl x hx), fun r hr x hx => h _ _ (hc.2 r hr x hx)⟩

/-! ### What parsing records -/

/-- Everything parsing guarantees of a comparison, whatever the template. -/
def EqOK (H : Val → String) (infl : Infl) (e : CEquals) : Prop :=
  Covered infl e ∧ Sep H e.left ∧ Sep H e.right

/-- no literal in the value is a hash -/
def NoHash (H : Val → String) (v : Val) : Prop := ∀ s, LitIn s v → ∀ x, H x ≠ s

theorem sep_mkEqV {H : Val → String} {v : Val} {e : EqV} (hv : NoHash H v) (h : mkEqV H v = .ok e) :
    Sep H e := by
  cases v with
  | dict kvs =>
    simp only [mkEqV] at h
    split at h
    · injection h with h; exact .inl ⟨_, h.symm⟩
    · cases h
  | str s => injection h with h; exact .inr ⟨s, h.symm, hv s (by simp [LitIn])⟩
  | int i => injection h with h; exact .inr ⟨_, h.symm, hv _ (by simp [LitIn, pyStr])⟩
  | bool b =>
    injection h with h
    refine .inr ⟨_, h.symm, hv _ ?_⟩
    cases b <;> simp [LitIn, pyStr]
  | none => cases h
  | flt r => cases h
  | list l => cases h

theorem litInList_mem {s : String} {v : Val} : ∀ {l : List Val}, v ∈ l → LitIn s v → LitInList s l := by
  intro l
  induction l with
  | nil => intro h; cases h
  | cons x xs ih =>
    intro h hl
    rcases List.mem_cons.1 h with rfl | h
    · exact .inl hl
    · exact .inr (ih h hl)

theorem litInDict_mem {s : String} {kv : Key × Val} : ∀ {l : List (Key × Val)}, kv ∈ l →
    LitIn s kv.2 → LitInDict s l := by
  intro l
  induction l with
  | nil => intro h; cases h
  | cons x xs ih =>
    intro h hl
    rcases List.mem_cons.1 h with rfl | h
    · exact .inl hl
    · exact .inr (ih h hl)

theorem noHash_mem {H : Val → String} {l : List Val} {v : Val} (h : NoHash H (.list l)) (hv : v ∈ l) :
    NoHash H v := fun s hs => h s (by rw [LitIn]; exact litInList_mem hv hs)

theorem noHash_dict {H : Val → String} {l : List (Key × Val)} {kv : Key × Val} (h : NoHash H (.dict l))
    (hv : kv ∈ l) : NoHash H kv.2 := fun s hs => h s (by rw [LitIn]; exact litInDict_mem hv hs)

theorem sep_mkEquals {H : Val → String} {v : Val} {e : CEquals} (hv : NoHash H v)
    (h : mkEquals H v = .ok e) : Sep H e.left ∧ Sep H e.right := by
  unfold mkEquals at h
  split at h
  · next a b =>
    cases ha : mkEqV H a with
    | error x => rw [ha] at h; cases h
    | ok l =>
      cases hb : mkEqV H b with
      | error x => rw [ha, hb] at h; cases h
      | ok r =>
        rw [ha, hb] at h
        injection h with h
        subst h
        exact ⟨sep_mkEqV (noHash_mem hv (by simp)) ha, sep_mkEqV (noHash_mem hv (by simp)) hb⟩
  · cases h

/-- What is guaranteed of a parse outcome. -/
def OutOK (H : Val → String) (r : ParseOut) : Prop :=
  InflWF H r.1 ∧ ∀ p, r.2 = .ok p → ∀ e ∈ (CObj.cond p.and p.or p.not p.eq).eqs, EqOK H r.1 e

/-- What is guaranteed of a finished condition. -/
def CondOK (H : Val → String) (c : CObj × Infl) : Prop := InflWF H c.2 ∧ ∀ e ∈ c.1.eqs, EqOK H c.2 e

theorem finish_ok {H : Val → String} {r : ParseOut} {c : CObj × Infl} (h : OutOK H r)
    (hf : finishCondition r = .ok c) : CondOK H c := by
  obtain ⟨i, r⟩ := r
  cases r with
  | ok p =>
    simp only [finishCondition, Except.ok.injEq] at hf
    subst hf
    exact ⟨h.1, h.2 p rfl⟩
  | error e =>
    cases e with
    | parse =>
      simp only [finishCondition, Except.ok.injEq] at hf
      subst hf
      refine ⟨h.1, ?_⟩
      simp [CObj.eqs, CObj.eqsAll]
    | py e => cases hf

/-- No literal of the conditions section is a hash (vacuous if the section is not an object). -/
def CondsNoHash (H : Val → String) (tmpl : Val) : Prop :=
  ∀ kvs, tmpl.getD "Conditions" (.dict []) = .ok (.dict kvs) → NoHash H (.dict kvs)

theorem noHash_empty (H : Val → String) : NoHash H (.dict []) := by
  intro s hs; simp [LitIn, LitInDict] at hs

theorem lookup_noHash {H : Val → String} {tmpl name v : Val} (hc : CondsNoHash H tmpl)
    (h : lookupCondition tmpl name = .ok v) : NoHash H v := by
  unfold lookupCondition at h
  cases hd : tmpl.getD "Conditions" (.dict []) with
  | error e => rw [hd] at h; cases h
  | ok cs =>
    rw [hd] at h
    cases cs with
    | dict kvs =>
      have hk := hc kvs hd
      have key : ∀ k : Key, NoHash H ((dlookup k kvs).getD (.dict [])) := by
        intro k
        cases hl : dlookup k kvs with
        | none => exact noHash_empty H
        | some w => exact noHash_dict hk (dlookup_mem hl)
      cases name with
      | str s => simp only [Except.ok.injEq] at h; rw [← h]; exact key _
      | int i => simp only [Except.ok.injEq] at h; rw [← h]; exact key _
      | bool b => simp only [Except.ok.injEq] at h; rw [← h]; exact key _
      | none => simp only [Except.ok.injEq] at h; rw [← h]; exact noHash_empty H
      | flt r => simp only [Except.ok.injEq] at h; rw [← h]; exact noHash_empty H
      | list l => cases h
      | dict d => cases h
    | _ => cases h

theorem condByName_ok {H : Val → String} {tmpl name : Val} {rec : Val → ParseOut} {c : CObj × Infl}
    (hc : CondsNoHash H tmpl) (hrec : ∀ v, NoHash H v → OutOK H (rec v))
    (h : condByName rec tmpl name = .ok c) : CondOK H c := by
  unfold condByName at h
  split at h
  · simp only [Except.ok.injEq] at h
    subst h
    exact ⟨inflWF_nil, by simp [CObj.eqs, CObj.eqsAll]⟩
  · cases hl : lookupCondition tmpl name with
    | error e => rw [hl] at h; cases h
    | ok v =>
      rw [hl] at h
      exact finish_ok (hrec v (lookup_noHash hc hl)) h

theorem eqOK_mono {H : Val → String} {infl infl' : Infl} {e : CEquals}
    (h : ∀ k x, InInfl infl k x → InInfl infl' k x) (he : EqOK H infl e) : EqOK H infl' e :=
  ⟨covered_mono h he.1, he.2⟩

theorem eqsAll_append (a b : List CObj) : CObj.eqsAll (a ++ b) = CObj.eqsAll a ++ CObj.eqsAll b := by
  induction a with
  | nil => rfl
  | cons x xs ih => simp [CObj.eqsAll, ih]

theorem processItems_one {H : Val → String} {tmpl : Val} {rec : Val → ParseOut} {k : Key} {v : Val}
    {rest : List Val} {infl : Infl} {acc : List CObj} :
    processItems H tmpl rec (.dict [(k, v)] :: rest) infl acc =
      if k = .str "Fn::Equals" then
        match mkEquals H v with
        | .error e => (infl, .error e)
        | .ok e => processItems H tmpl rec rest (inflEqual e infl) (acc ++ [.equals e])
      else if k = .str "Condition" then
        match condByName rec tmpl v with
        | .error e => (infl, .error (.py e))
        | .ok (c, ci) => processItems H tmpl rec rest (inflMerge ci infl) (acc ++ [c])
      else
        match finishCondition (rec (.dict [(k, v)])) with
        | .error e => (infl, .error (.py e))
        | .ok (c, ci) => processItems H tmpl rec rest (inflMerge ci infl) (acc ++ [c]) := by
  rw [processItems]; rfl

theorem processItems_other {H : Val → String} {tmpl : Val} {rec : Val → ParseOut} {v : Val}
    {rest : List Val} {infl : Infl} {acc : List CObj} (h : ∀ k w, v ≠ .dict [(k, w)]) :
    processItems H tmpl rec (v :: rest) infl acc = processItems H tmpl rec rest infl acc := by
  rw [processItems]
  exact h

theorem processItems_ok {H : Val → String} {tmpl : Val} {rec : Val → ParseOut}
    (hc : CondsNoHash H tmpl) (hrec : ∀ v, NoHash H v → OutOK H (rec v)) :
    ∀ (vs : List Val) (infl : Infl) (acc : List CObj), (∀ v ∈ vs, NoHash H v) → InflWF H infl →
      (∀ e ∈ CObj.eqsAll acc, EqOK H infl e) →
      InflWF H (processItems H tmpl rec vs infl acc).1 ∧
      ∀ os, (processItems H tmpl rec vs infl acc).2 = .ok os →
        ∀ e ∈ CObj.eqsAll os, EqOK H (processItems H tmpl rec vs infl acc).1 e := by
  intro vs
  induction vs with
  | nil =>
    intro infl acc _ hw hacc
    refine ⟨hw, ?_⟩
    intro os h
    simp only [processItems, Except.ok.injEq] at h
    subst h
    exact hacc
  | cons v vs ih =>
    intro infl acc hv hw hacc
    have hrest : ∀ v ∈ vs, NoHash H v := fun x hx => hv x (List.mem_cons_of_mem _ hx)
    have hhead := hv v List.mem_cons_self
    have hmerge : ∀ (c : CObj) (ci : Infl), CondOK H (c, ci) →
        ∀ e ∈ CObj.eqsAll (acc ++ [c]), EqOK H (inflMerge ci infl) e := by
      intro c ci hok e he
      rw [eqsAll_append, List.mem_append] at he
      rcases he with he | he
      · exact eqOK_mono (fun k x hx => (inInfl_merge hok.1.nodup).2 (.inr hx)) (hacc e he)
      · simp only [CObj.eqsAll, List.append_nil] at he
        exact eqOK_mono (fun k x hx => (inInfl_merge hok.1.nodup).2 (.inl hx)) (hok.2 e he)
    by_cases h1 : ∃ k w, v = .dict [(k, w)]
    · obtain ⟨k, w, rfl⟩ := h1
      rw [processItems_one]
      split
      · cases he : mkEquals H w with
        | error e => exact ⟨hw, fun os h => by cases h⟩
        | ok e =>
          simp only
          have hsep := sep_mkEquals (noHash_dict (kv := (k, w)) hhead (by simp)) he
          refine ih _ _ hrest (inflWF_equal hw hsep.1 hsep.2) ?_
          intro e' he'
          rw [eqsAll_append, List.mem_append] at he'
          rcases he' with he' | he'
          · exact eqOK_mono (fun k x hx => inInfl_equal.2 (.inr (.inr hx))) (hacc e' he')
          · simp only [CObj.eqsAll, CObj.eqs, List.append_nil, List.mem_singleton] at he'
            subst he'
            exact ⟨covered_equal _ _, hsep⟩
      · split
        · cases hcn : condByName rec tmpl w with
          | error e => exact ⟨hw, fun os h => by cases h⟩
          | ok cc =>
            obtain ⟨c, ci⟩ := cc
            simp only
            have hok := condByName_ok hc hrec hcn
            exact ih _ _ hrest (inflWF_merge hok.1 hw) (hmerge c ci hok)
        · cases hfn : finishCondition (rec (.dict [(k, w)])) with
          | error e => exact ⟨hw, fun os h => by cases h⟩
          | ok cc =>
            obtain ⟨c, ci⟩ := cc
            simp only
            have hok := finish_ok (hrec _ hhead) hfn
            exact ih _ _ hrest (inflWF_merge hok.1 hw) (hmerge c ci hok)
    · rw [processItems_other (fun k w e => h1 ⟨k, w, e⟩)]
      exact ih _ _ hrest hw hacc

theorem noHash_iter {v : Val} {xs : List Val} (h : pyIterVal v = .ok xs) :
    (∃ l, v = .list l ∧ xs = l) ∨ (∀ x ∈ xs, ∀ k w, x ≠ .dict [(k, w)]) := by
  cases v with
  | list l => injection h with h; exact .inl ⟨l, rfl, h.symm⟩
  | dict kvs =>
    right
    injection h with h
    subst h
    intro x hx k w
    obtain ⟨kv, _, rfl⟩ := List.mem_map.1 hx
    cases kv.1 <;> simp [Key.toVal]
  | str s =>
    right
    injection h with h
    subst h
    intro x hx k w
    obtain ⟨c, _, rfl⟩ := List.mem_map.1 hx
    simp
  | _ => cases h

/-- items that are not one-key objects are skipped -/
theorem processItems_skip {H : Val → String} {tmpl : Val} {rec : Val → ParseOut} :
    ∀ (vs : List Val) (infl : Infl) (acc : List CObj), (∀ x ∈ vs, ∀ k w, x ≠ .dict [(k, w)]) →
      processItems H tmpl rec vs infl acc = (infl, .ok acc) := by
  intro vs
  induction vs with
  | nil => intro infl acc _; rfl
  | cons v vs ih =>
    intro infl acc h
    rw [processItems_other (h v List.mem_cons_self)]
    exact ih infl acc (fun x hx => h x (List.mem_cons_of_mem _ hx))

theorem processFunction_ok {H : Val → String} {tmpl : Val} {rec : Val → ParseOut}
    (hc : CondsNoHash H tmpl) (hrec : ∀ v, NoHash H v → OutOK H (rec v)) (v : Val) (hv : NoHash H v) :
    InflWF H (processFunction H tmpl rec v).1 ∧
      ∀ os, (processFunction H tmpl rec v).2 = .ok os →
        ∀ e ∈ CObj.eqsAll os, EqOK H (processFunction H tmpl rec v).1 e := by
  unfold processFunction
  cases hi : pyIterVal v with
  | error e => exact ⟨inflWF_nil, fun os h => by cases h⟩
  | ok xs =>
    simp only
    rcases noHash_iter hi with ⟨l, rfl, rfl⟩ | hno
    · exact processItems_ok hc hrec _ _ _ (fun x hx => noHash_mem hv hx) inflWF_nil
        (by simp [CObj.eqsAll])
    · rw [processItems_skip _ _ _ hno]
      refine ⟨inflWF_nil, ?_⟩
      intro os h
      simp only [Except.ok.injEq] at h
      subst h
      simp [CObj.eqsAll]

/-- Whatever the value, the recorded influences cover every comparison of the parsed condition. -/
theorem processCondition_ok {H : Val → String} {tmpl : Val} (hc : CondsNoHash H tmpl) :
    ∀ (n : Nat) (v : Val), NoHash H v → OutOK H (processCondition H tmpl n v) := by
  intro n
  induction n with
  | zero => intro v _; exact ⟨inflWF_nil, fun p h => by cases h⟩
  | succ n ih =>
    intro v hv
    unfold processCondition
    split
    · next h => cases h
    · next m k fv heq =>
      injection heq with heq
      subst heq
      have hfv : NoHash H fv := noHash_dict (kv := (k, fv)) hv (by simp)
      have hpf := processFunction_ok hc ih fv hfv
      split
      · refine ⟨hpf.1, ?_⟩
        intro p hp
        cases hr : (processFunction H tmpl (processCondition H tmpl n) fv).2 with
        | error e => simp only [hr, Except.map] at hp; cases hp
        | ok os =>
          simp only [hr, Except.map, Except.ok.injEq] at hp
          subst hp
          intro e he
          simp only [CObj.eqs, CObj.eqsAll, Option.toList_none, List.append_nil] at he
          exact hpf.2 os hr e he
      · split
        · refine ⟨hpf.1, ?_⟩
          intro p hp
          cases hr : (processFunction H tmpl (processCondition H tmpl n) fv).2 with
          | error e => simp only [hr, Except.map] at hp; cases hp
          | ok os =>
            simp only [hr, Except.map, Except.ok.injEq] at hp
            subst hp
            intro e he
            simp only [CObj.eqs, CObj.eqsAll, Option.toList_none, List.append_nil, List.nil_append] at he
            exact hpf.2 os hr e he
        · split
          · refine ⟨hpf.1, ?_⟩
            intro p hp
            cases hr : (processFunction H tmpl (processCondition H tmpl n) fv).2 with
            | error e => simp only [hr, Except.map] at hp; cases hp
            | ok os =>
              simp only [hr, Except.map, Except.ok.injEq] at hp
              subst hp
              intro e he
              simp only [CObj.eqs, CObj.eqsAll, Option.toList_none, List.append_nil,
                List.nil_append] at he
              exact hpf.2 os hr e he
          · split
            · cases he : mkEquals H fv with
              | error e => exact ⟨inflWF_nil, fun p h => by cases h⟩
              | ok e =>
                simp only
                have hsep := sep_mkEquals hfv he
                refine ⟨inflWF_equal inflWF_nil hsep.1 hsep.2, ?_⟩
                intro p hp e' he'
                simp only [Except.ok.injEq] at hp
                subst hp
                simp only [CObj.eqs, CObj.eqsAll, List.nil_append, Option.toList_some,
                  List.mem_singleton] at he'
                subst he'
                exact ⟨covered_equal _ _, hsep⟩
            · split
              · cases hl : lookupCondition tmpl fv with
                | error e => exact ⟨inflWF_nil, fun p h => by cases h⟩
                | ok w =>
                  simp only
                  have hw := ih w (lookup_noHash hc hl)
                  split
                  · next i hr =>
                    rw [hr] at hw
                    refine ⟨hw.1, ?_⟩
                    intro p hp
                    simp only [Except.ok.injEq] at hp
                    subst hp
                    simp [CObj.eqs, CObj.eqsAll]
                  · exact hw
              · refine ⟨inflWF_nil, ?_⟩
                intro p hp
                simp only [Except.ok.injEq] at hp
                subst hp
                simp [CObj.eqs, CObj.eqsAll]
    · exact ⟨inflWF_nil, fun p h => by cases h⟩

end CfnLint
