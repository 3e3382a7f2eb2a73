import Verif.Lemmas.Config
namespace CfnLint
open Spec

theorem splitOn_ne_nil (c : Char) (l : List Char) : splitOn c l ≠ [] := by
  induction l with
  | nil => simp [splitOn]
  | cons x xs ih =>
    unfold splitOn
    split
    · simp
    · split <;> simp

theorem splitOn_plain {c : Char} : ∀ {l : List Char}, c ∉ l → splitOn c l = [l] := by
  intro l
  induction l with
  | nil => intro _; rfl
  | cons x xs ih =>
    intro h
    simp only [List.mem_cons, not_or] at h
    unfold splitOn
    rw [if_neg (Ne.symm h.1), ih h.2]

theorem splitOn_append {c : Char} : ∀ {a : List Char} (b : List Char), c ∉ a →
    splitOn c (a ++ c :: b) = a :: splitOn c b := by
  intro a
  induction a with
  | nil => intro b _; simp [splitOn]
  | cons x xs ih =>
    intro b h
    simp only [List.mem_cons, not_or] at h
    simp only [List.cons_append]
    rw [splitOn, if_neg (Ne.symm h.1), ih b h.2]

theorem parseItem_text {r k v : String} (hr : PlainText r) (hk : PlainText k) (hv : PlainText v) :
    parseItem (itemText (r, k, v)).toList = .ok (r, k, v) := by
  have e : (itemText (r, k, v)).toList = r.toList ++ ':' :: (k.toList ++ '=' :: v.toList) := by
    simp [itemText]
  have h1 : splitOn ':' (itemText (r, k, v)).toList = [r.toList, k.toList ++ '=' :: v.toList] := by
    rw [e, splitOn_append _ hr.2.1, splitOn_plain]
    simp only [List.mem_append, List.mem_cons, not_or]
    exact ⟨hk.2.1, by decide, hv.2.1⟩
  have h2 : splitOn '=' (k.toList ++ '=' :: v.toList) = [k.toList, v.toList] := by
    rw [splitOn_append _ hk.2.2, splitOn_plain hv.2.2]
  unfold parseItem
  simp only [h1, idx, List.getElem?_cons_zero, List.getElem?_cons_succ, h2, bind, Except.bind,
    String.ofList_toList]

theorem comma_not_in_item {r k v : String} (hr : PlainText r) (hk : PlainText k) (hv : PlainText v) :
    ',' ∉ (itemText (r, k, v)).toList := by
  simp only [itemText, String.toList_append, List.mem_append, not_or]
  exact ⟨⟨⟨⟨hr.1, by decide⟩, hk.1⟩, by decide⟩, hv.1⟩

/-- items joined by commas -/
def joinItems : List (String × String × String) → List Char
  | [] => []
  | [i] => (itemText i).toList
  | i :: rest => (itemText i).toList ++ ',' :: joinItems rest

theorem splitOn_joinItems : ∀ (i : String × String × String) (rest : List (String × String × String)),
    (∀ j ∈ i :: rest, PlainText j.1 ∧ PlainText j.2.1 ∧ PlainText j.2.2) →
    splitOn ',' (joinItems (i :: rest)) = (i :: rest).map (fun j => (itemText j).toList) := by
  intro i rest
  induction rest generalizing i with
  | nil =>
    intro h
    obtain ⟨h1, h2, h3⟩ := h i List.mem_cons_self
    simp only [joinItems, List.map_cons, List.map_nil]
    exact splitOn_plain (comma_not_in_item h1 h2 h3)
  | cons j rest ih =>
    intro h
    obtain ⟨h1, h2, h3⟩ := h i List.mem_cons_self
    have : joinItems (i :: j :: rest) = (itemText i).toList ++ ',' :: joinItems (j :: rest) := rfl
    rw [this, splitOn_append _ (comma_not_in_item h1 h2 h3),
      ih j (fun x hx => h x (List.mem_cons_of_mem _ hx))]
    rfl

/-- value of rule/option in a parsed map -/
def cfgValue (r k : String) (m : List (String × List (String × String))) : Option String :=
  (dlookup r m).bind (dlookup k)

theorem cfgValue_set (r k r' k' v : String) (m : List (String × List (String × String))) :
    cfgValue r k (dset r' (dset k' v ((dlookup r' m).getD [])) m) =
      if r' = r ∧ k' = k then some v else cfgValue r k m := by
  unfold cfgValue
  rw [dlookup_dset]
  by_cases h1 : r' = r
  · subst h1
    simp only [if_true, Option.bind_some, dlookup_dset, true_and]
    by_cases h2 : k' = k
    · simp [h2]
    · simp only [h2, if_false]
      cases dlookup r' m <;> simp [dlookup]
  · simp [h1]

theorem parseRuleLoop_items : ∀ (items : List (String × String × String))
    (acc : List (String × List (String × String))),
    (∀ j ∈ items, PlainText j.1 ∧ PlainText j.2.1 ∧ PlainText j.2.2) →
    ∃ m, parseRuleLoop (items.map (fun j => (itemText j).toList)) acc = .ok m ∧
      (∀ r k, cfgValue r k m = (itemValue r k items).or (cfgValue r k acc)) ∧
      (∀ r, (dlookup r m).isSome = true ↔ (dlookup r acc).isSome = true ∨ ∃ i ∈ items, i.1 = r) := by
  intro items
  induction items with
  | nil => intro acc _; exact ⟨acc, rfl, by simp [itemValue], by simp⟩
  | cons i rest ih =>
    intro acc h
    obtain ⟨r0, k0, v0⟩ := i
    obtain ⟨h1, h2, h3⟩ := h (r0, k0, v0) List.mem_cons_self
    obtain ⟨m, g1, g2, g3⟩ := ih (dset r0 (dset k0 v0 ((dlookup r0 acc).getD [])) acc)
      (fun x hx => h x (List.mem_cons_of_mem _ hx))
    refine ⟨m, ?_, ?_, ?_⟩
    · simp only [List.map_cons, parseRuleLoop, parseItem_text h1 h2 h3]
      exact g1
    · intro r k
      rw [g2, cfgValue_set]
      simp only [itemValue]
      by_cases he : r0 = r ∧ k0 = k
      · simp only [he, and_self, if_true]
        cases itemValue r k rest <;> simp
      · simp only [he, if_false, Option.or_none]
    · intro r
      rw [g3, dlookup_dset]
      simp only [List.mem_cons, exists_eq_or_imp]
      by_cases he : r0 = r
      · simp [he]
      · simp [he]

theorem mem_expandIgnore (glob : String → List String) (f : String) : ∀ l,
    f ∈ expandIgnore glob l ↔ ∃ p ∈ l, PatternMeans glob p f := by
  intro l
  induction l with
  | nil => simp [expandIgnore]
  | cons p l ih =>
    simp only [expandIgnore, List.mem_append, ih, List.mem_cons, exists_eq_or_imp]
    refine or_congr_left ?_
    unfold PatternMeans
    cases h : glob p <;> simp

theorem mem_expandTemplates (glob : String → List String) (ign : List String) (f : String) : ∀ l,
    f ∈ expandTemplates glob ign l ↔ (∃ p ∈ l, PatternMeans glob p f) ∧ f ∉ ign := by
  intro l
  induction l with
  | nil => simp [expandTemplates]
  | cons p l ih =>
    simp only [expandTemplates, List.mem_append, ih, List.mem_cons, exists_eq_or_imp]
    rw [or_and_right]
    refine or_congr_left ?_
    unfold PatternMeans
    cases h : glob p with
    | nil =>
      simp only [List.isEmpty_nil, if_true, List.not_mem_nil, true_and, false_or]
      split <;> simp_all
    | cons a b => simp [List.mem_filter]

theorem strLe_trans (a b c : String) : strLe a b = true → strLe b c = true → strLe a c = true := by
  simp only [strLe, decide_eq_true_eq]
  exact fun h1 h2 => le_trans h1 h2

theorem strLe_total (a b : String) : (strLe a b || strLe b a) = true := by
  simp only [strLe, Bool.or_eq_true, decide_eq_true_eq]
  exact le_total a b

/-- what is before the first separator -/
theorem splitOn_first (c : Char) (l : List Char) :
    ∃ w tl, splitOn c l = w :: tl ∧ c ∉ w ∧ ((l = w) ∨ ∃ r, l = w ++ c :: r) := by
  induction l with
  | nil => exact ⟨[], [], rfl, by simp, .inl rfl⟩
  | cons x l ih =>
    obtain ⟨w, tl, h1, h2, h3⟩ := ih
    rw [splitOn, h1]
    by_cases hx : x = c
    · subst hx
      rw [if_pos rfl]
      exact ⟨[], w :: tl, rfl, by simp, .inr ⟨l, rfl⟩⟩
    · rw [if_neg hx]
      refine ⟨x :: w, tl, rfl, by simp [h2, Ne.symm hx], ?_⟩
      rcases h3 with rfl | ⟨r, rfl⟩
      · exact .inl rfl
      · exact .inr ⟨r, rfl⟩

end CfnLint
