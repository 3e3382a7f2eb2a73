import Verif.Model.Graph
import Verif.Spec.Graph
import Verif.Lemmas.Refs
import Verif.Props.Template
import Mathlib.Data.List.TakeWhile
/-
Lemmas about the dependency graph.
-/
namespace CfnLint
open Spec

theorem mem_collectM {α β : Type} {f : α → PyM (List β)} {b : β} : ∀ {as : List α} {r : List β}, collectM f as = .ok r →
    (b ∈ r ↔ ∃ a ∈ as, ∃ l, f a = .ok l ∧ b ∈ l) := by
  intro as
  induction as with
  | nil => intro r h; rw [collectM] at h; cases h; simp
  | cons a as ih =>
    intro r h
    rw [collectM] at h
    split at h
    · cases h
    · rename_i l hl
      split at h
      · cases h
      · rename_i r' hr
        cases h
        rw [List.mem_append, ih hr]
        constructor
        · rintro (h | ⟨a', ha', l', h1, h2⟩)
          · exact ⟨a, List.mem_cons_self .., l, hl, h⟩
          · exact ⟨a', List.mem_cons_of_mem _ ha', l', h1, h2⟩
        · rintro ⟨a', ha', l', h1, h2⟩
          rcases List.mem_cons.1 ha' with rfl | ha'
          · rw [hl] at h1; cases h1; exact Or.inl h2
          · exact Or.inr ⟨a', ha', l', h1, h2⟩

theorem collectM_ok {α β : Type} {f : α → PyM (List β)} : ∀ {as : List α}, (∀ a ∈ as, ∃ l, f a = .ok l) →
    ∃ r, collectM f as = .ok r := by
  intro as
  induction as with
  | nil => intro _; exact ⟨[], by rw [collectM]⟩
  | cons a as ih =>
    intro h
    obtain ⟨l, hl⟩ := h a (List.mem_cons_self ..)
    obtain ⟨r, hr⟩ := ih (fun a' h' => h a' (List.mem_cons_of_mem _ h'))
    exact ⟨l ++ r, by rw [collectM, hl, hr]⟩

theorem collectM_each {α β : Type} {f : α → PyM (List β)} : ∀ {as : List α} {r : List β}, collectM f as = .ok r →
    ∀ a ∈ as, ∃ l, f a = .ok l
  | [], _, _, a, ha => by cases ha
  | x :: xs, r, h, a, ha => by
    rw [collectM] at h
    cases hx : f x with
    | error e => rw [hx] at h; cases h
    | ok l =>
      rw [hx] at h
      cases hc : collectM f xs with
      | error e => rw [hc] at h; cases h
      | ok r' =>
        rw [List.mem_cons] at ha
        rcases ha with rfl | ha
        · exact ⟨l, hx⟩
        · exact collectM_each hc a ha

/-- resources with entries are recognised -/
theorem isResource_str {res : List (Key × Val)} (hne : ∀ kv ∈ res, ∃ e b, kv.2 = .dict (e :: b)) (s : String) :
    isResource res (.str s) = .ok (decide (Key.str s ∈ res.map Prod.fst)) := by
  simp only [isResource, toKey]
  cases h : dlookup (Key.str s) res with
  | none =>
    have := dlookup_none_iff.1 h
    simp [this, Val.truthy]
  | some v =>
    have hm := dlookup_mem h
    obtain ⟨e, b, hb⟩ := hne _ hm
    simp only at hb
    subst hb
    have : Key.str s ∈ res.map Prod.fst := List.mem_map_of_mem (f := Prod.fst) hm
    simp [this, Val.truthy]

theorem edgeTo_str {res : List (Key × Val)} (hne : ∀ kv ∈ res, ∃ e b, kv.2 = .dict (e :: b)) (src : Key) (s : String) :
    edgeTo res src (.str s) = .ok (if Key.str s ∈ res.map Prod.fst then [(src, .str s)] else []) := by
  rw [edgeTo, isResource_str hne]
  by_cases h : Key.str s ∈ res.map Prod.fst
  · simp only [h, decide_true, if_true]; rfl
  · simp only [h, decide_false, if_false]

theorem beforeDot_owner {n : String} {b : List Char} (h : Owner n.toList b) :
    (if '.' ∈ n.toList then beforeDot n else n) = String.ofList b := by
  obtain ⟨hb, rfl | ⟨attr, h⟩⟩ := h
  · rw [if_neg hb, String.ofList_toList]
  · have hmem : '.' ∈ n.toList := by rw [h]; simp
    rw [if_pos hmem, beforeDot, h]
    congr 1
    rw [List.takeWhile_append_of_pos]
    · simp
    · intro c hc
      simp only [ne_eq, decide_eq_true_eq]
      rintro rfl
      exact hb hc

theorem owner_exists (n : List Char) : Owner n (n.takeWhile (fun c => c ≠ '.')) := by
  refine ⟨?_, ?_⟩
  · intro h
    have := List.mem_takeWhile_imp h
    simp at this
  · by_cases h : '.' ∈ n
    · right
      have hd : n.dropWhile (fun c => c ≠ '.') ≠ [] := by
        intro he
        rw [List.dropWhile_eq_nil_iff] at he
        have := he _ h
        simp at this
      cases hdd : n.dropWhile (fun c => c ≠ '.') with
      | nil => exact absurd hdd hd
      | cons c attr =>
        have hc : c = '.' := by
          have := List.head_dropWhile_not (fun c => decide (c ≠ '.')) (l := n) hd
          simp only [hdd, List.head_cons] at this
          simpa using this
        subst hc
        exact ⟨attr, by rw [← hdd, List.takeWhile_append_dropWhile]⟩
    · left
      symm
      rw [List.takeWhile_eq_self_iff]
      intro c hc
      simp only [ne_eq, decide_eq_true_eq]
      rintro rfl
      exact h hc

theorem tokenAt_some {l : List Char} {x : String} (h : tokenAt l = some x) :
    ∃ post, l = '$' :: '{' :: x.toList ++ '}' :: post ∧ ∀ c ∈ x.toList, isTokenChar c = true := by
  unfold tokenAt at h
  split at h
  · rename_i r
    split at h
    · rename_i post hd
      cases h
      refine ⟨post, ?_, ?_⟩
      · simp only [String.toList_ofList, List.cons_append]
        rw [← hd, List.takeWhile_append_dropWhile]
      · intro c hc
        rw [String.toList_ofList] at hc
        exact List.mem_takeWhile_imp hc
    · cases h
  · cases h

theorem tokenAt_of {x post : List Char} (h : ∀ c ∈ x, isTokenChar c = true) :
    tokenAt ('$' :: '{' :: x ++ '}' :: post) = some (String.ofList x) := by
  have hn : isTokenChar '}' = false := by decide
  have h1 : (x ++ '}' :: post).dropWhile isTokenChar = '}' :: post := by
    rw [List.dropWhile_append_of_pos h, List.dropWhile_cons_of_neg (by simp [hn])]
  have h2 : (x ++ '}' :: post).takeWhile isTokenChar = x := by
    rw [List.takeWhile_append_of_pos h, List.takeWhile_cons_of_neg (by simp [hn]), List.append_nil]
  simp only [tokenAt, List.cons_append, h1, h2]

/-- The parameters found in a text are exactly its `${...}` of letters, digits and dots. -/
theorem mem_findParams {x : String} : ∀ {s : List Char}, x ∈ findParams s ↔
    (∃ pre post, s = pre ++ '$' :: '{' :: x.toList ++ '}' :: post) ∧ ∀ c ∈ x.toList, isTokenChar c = true := by
  intro s
  induction s with
  | nil =>
    simp only [findParams, List.not_mem_nil, false_iff, not_and]
    rintro ⟨pre, post, h⟩
    cases pre <;> simp at h
  | cons c rest ih =>
    rw [findParams, List.mem_append, ih]
    constructor
    · rintro (h | ⟨⟨pre, post, h⟩, h2⟩)
      · rw [Option.mem_toList] at h
        obtain ⟨post, h1, h2⟩ := tokenAt_some h
        exact ⟨⟨[], post, h1⟩, h2⟩
      · exact ⟨⟨c :: pre, post, by rw [h]; simp⟩, h2⟩
    · rintro ⟨⟨pre, post, h⟩, h2⟩
      cases pre with
      | nil =>
        left
        rw [Option.mem_toList, h, List.nil_append, tokenAt_of h2, String.ofList_toList]
      | cons c' pre =>
        right
        simp only [List.cons_append, List.cons.injEq] at h
        exact ⟨⟨pre, post, by rw [h.2]⟩, h2⟩

theorem tokenChar_cases {c : Char} : isTokenChar c = true ↔ (c.isAlphanum ∨ c = '.') := by
  simp [isTokenChar]

theorem variable_of_token {s : List Char} {x : String} (h : x ∈ findParams s) : Variable s x.toList := by
  rw [mem_findParams] at h
  refine ⟨h.1, ?_, ?_⟩
  · intro c hc
    have := h.2 c hc
    refine ⟨?_, ?_, ?_⟩ <;> (rintro rfl; revert this; decide)
  · intro hh
    have := h.2 '!' (List.mem_of_mem_head? hh)
    revert this; decide

theorem token_of_variable {s n : List Char} (h : Variable s n) (hp : ∀ c ∈ n, c.isAlphanum ∨ c = '.') :
    String.ofList n ∈ findParams s := by
  rw [mem_findParams, String.toList_ofList]
  exact ⟨h.1, fun c hc => tokenChar_cases.2 (hp c hc)⟩

theorem trail_transGen {E : List (Key × Key)} {x y : Key} {c : List (Key × Key × Nat)} (h : Trail E x c y) :
    Relation.TransGen (Rel E) x y := by
  induction h with
  | one h => exact .single h
  | cons h _ ih => exact .head h ih

/-- an edge of a trail is an edge of the graph, from what is reached to where the end is reached -/
theorem trail_mem {E : List (Key × Key)} {x y : Key} {c : List (Key × Key × Nat)} (h : Trail E x c y) :
    ∀ e ∈ c, (e.1, e.2.1) ∈ E ∧ Relation.ReflTransGen (Rel E) x e.1 ∧ Relation.ReflTransGen (Rel E) e.2.1 y := by
  induction h with
  | one h =>
    intro e he
    rw [List.mem_singleton] at he
    subst he
    exact ⟨h, .refl, .refl⟩
  | cons h ht ih =>
    intro e he
    rcases List.mem_cons.1 he with rfl | he
    · exact ⟨h, .refl, (trail_transGen ht).to_reflTransGen⟩
    · obtain ⟨h1, h2, h3⟩ := ih e he
      exact ⟨h1, .head h h2, h3⟩

theorem trail_ne {E : List (Key × Key)} {x y : Key} {c : List (Key × Key × Nat)} (h : Trail E x c y) : c ≠ [] := by
  cases h <;> simp

theorem mem_addCycle {e : CycleEdge} : ∀ {cycle result : List CycleEdge}, e ∈ addCycle result cycle ↔ e ∈ result ∨ e ∈ cycle := by
  intro cycle
  induction cycle with
  | nil => intro result; simp [addCycle]
  | cons c cs ih =>
    intro result
    have : addCycle result (c :: cs) = addCycle (if c ∈ result then result else result ++ [c]) cs := rfl
    rw [this, ih]
    split
    · rename_i hc
      rw [List.mem_cons]
      constructor
      · rintro (h | h)
        · exact Or.inl h
        · exact Or.inr (Or.inr h)
      · rintro (h | rfl | h)
        · exact Or.inl h
        · exact Or.inl hc
        · exact Or.inr h
    · simp only [List.mem_append, List.mem_cons, or_assoc, List.not_mem_nil, or_false]

/-- the reported edges are those of the cycles found from each resource -/
theorem mem_getCycles {find : List Edge → Key → Option (List CycleEdge)} {E : List Edge} {e : CycleEdge} {names : List Key} :
    e ∈ getCycles find E names ↔ ∃ n ∈ names, ∃ c, find E n = some c ∧ e ∈ c := by
  have key : ∀ (names : List Key) (r : List CycleEdge), e ∈ names.foldl (cycleStep find E) r ↔ e ∈ r ∨ ∃ n ∈ names, ∃ c, find E n = some c ∧ e ∈ c := by
    intro names
    induction names with
    | nil => intro r; simp
    | cons n names ih =>
      intro r
      rw [List.foldl_cons, ih, cycleStep]
      cases hf : find E n with
      | none =>
        simp only
        constructor
        · rintro (h | ⟨n', hn', h⟩)
          · exact Or.inl h
          · exact Or.inr ⟨n', List.mem_cons_of_mem _ hn', h⟩
        · rintro (h | ⟨n', hn', c, hc, h⟩)
          · exact Or.inl h
          · rcases List.mem_cons.1 hn' with rfl | hn'
            · rw [hf] at hc; cases hc
            · exact Or.inr ⟨n', hn', c, hc, h⟩
      | some c =>
        simp only [mem_addCycle]
        constructor
        · rintro ((h | h) | ⟨n', hn', h⟩)
          · exact Or.inl h
          · exact Or.inr ⟨n, List.mem_cons_self .., c, hf, h⟩
          · exact Or.inr ⟨n', List.mem_cons_of_mem _ hn', h⟩
        · rintro (h | ⟨n', hn', c', hc', h⟩)
          · exact Or.inl (Or.inl h)
          · rcases List.mem_cons.1 hn' with rfl | hn'
            · rw [hf] at hc'; cases hc'; exact Or.inl (Or.inr h)
            · exact Or.inr ⟨n', hn', c', hc', h⟩
  rw [getCycles, key]
  simp

end CfnLint
