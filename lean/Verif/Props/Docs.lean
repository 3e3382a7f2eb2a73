import Verif.Model.Docs
import Verif.Spec.Docs
import Verif.Lemmas.Main
import Verif.Props.Main
import Mathlib.Data.Nat.Find
/-
C90: the documentation of the rules.
-/
namespace CfnLint
open Spec

/-- a line that ends with a line feed and has no other -/
def FullLine (l : List Char) : Prop := ∃ m, l = m ++ ['\n'] ∧ '\n' ∉ m

theorem linesOf_ne : ∀ (cs : List Char), ∀ l ∈ linesOf cs, l ≠ []
  | [], l, h => by cases h
  | c :: cs, l, h => by
    have ih := linesOf_ne cs
    rw [linesOf] at h
    split at h
    · rcases List.mem_cons.1 h with rfl | h
      · simp
      · exact ih l h
    · split at h
      · cases List.mem_singleton.1 h; simp
      · rename_i l' ls e
        rcases List.mem_cons.1 h with rfl | h
        · simp
        · exact ih l (by rw [e]; exact List.mem_cons_of_mem _ h)

theorem linesOf_flatten : ∀ (cs : List Char), (linesOf cs).flatten = cs
  | [] => rfl
  | c :: cs => by
    have ih := linesOf_flatten cs
    rw [linesOf]
    split
    · rename_i h; subst h; simp [ih]
    · split
      · rename_i e; rw [e] at ih; simp at ih; simp [← ih]
      · rename_i l ls e; rw [e] at ih; simp at ih; simp [← ih]

theorem linesOf_split (X : List Char) : ∀ (a : List Char), linesOf (a ++ '\n' :: X) = linesOf (a ++ ['\n']) ++ linesOf X
  | [] => by simp [linesOf]
  | c :: a => by
    have ih := linesOf_split X a
    rw [List.cons_append, List.cons_append, linesOf, linesOf]
    by_cases hc : c = '\n'
    · rw [if_pos hc, if_pos hc, ih]; rfl
    · rw [if_neg hc, if_neg hc, ih]
      cases hl : linesOf (a ++ ['\n']) with
      | nil =>
        have := linesOf_flatten (a ++ ['\n'])
        rw [hl] at this
        simp at this
      | cons l ls => rfl

theorem linesOf_full : ∀ (a : List Char), ∀ l ∈ linesOf (a ++ ['\n']), FullLine l
  | [], l, h => by
    simp [linesOf] at h
    subst h
    exact ⟨[], rfl, by simp⟩
  | c :: a, l, h => by
    have ih := linesOf_full a
    rw [List.cons_append, linesOf] at h
    split at h
    · rcases List.mem_cons.1 h with rfl | h
      · exact ⟨[], rfl, by simp⟩
      · exact ih l h
    · rename_i hc
      split at h
      · rename_i e
        have := linesOf_flatten (a ++ ['\n'])
        rw [e] at this
        simp at this
      · rename_i l' ls e
        rw [e] at ih
        rcases List.mem_cons.1 h with rfl | h
        · obtain ⟨m, rfl, hm⟩ := ih l' List.mem_cons_self
          refine ⟨c :: m, rfl, ?_⟩
          rw [List.mem_cons]
          rintro (h | h)
          · exact hc h.symm
          · exact hm h
        · exact ih l (List.mem_cons_of_mem _ h)

theorem linesOf_line {m : List Char} (h : '\n' ∉ m) : linesOf (m ++ ['\n']) = [m ++ ['\n']] := by
  induction m with
  | nil => simp [linesOf]
  | cons c m ih =>
    rw [List.mem_cons, not_or] at h
    rw [List.cons_append, linesOf, if_neg (Ne.symm h.1), ih h.2]

theorem linesOf_cons {l : List Char} (h : FullLine l) (X : List Char) : linesOf (l ++ X) = l :: linesOf X := by
  obtain ⟨m, rfl, hm⟩ := h
  rw [List.append_assoc, List.singleton_append, linesOf_split, linesOf_line hm]
  rfl

theorem linesOf_lines : ∀ {K : List (List Char)}, (∀ l ∈ K, FullLine l) → ∀ X, linesOf (K.flatten ++ X) = K ++ linesOf X
  | [], _, X => rfl
  | l :: K, h, X => by
    rw [List.flatten_cons, List.append_assoc, linesOf_cons (h l (by simp)), linesOf_lines (fun l hl => h l (List.mem_cons_of_mem _ hl))]
    rfl

theorem linesOf_whole {a : List Char} (h : WholeLines a) (X : List Char) : linesOf (a ++ X) = linesOf a ++ linesOf X := by
  rcases h with rfl | ⟨m, rfl⟩
  · rfl
  · rw [List.append_assoc, List.singleton_append, linesOf_split]

theorem whole_before : ∀ {cs : List Char} {u v : List (List Char)}, linesOf cs = u ++ v → v ≠ [] → WholeLines u.flatten
  | [], u, v, h, hv => by
    rw [linesOf] at h
    have := List.append_eq_nil_iff.1 h.symm
    exact absurd this.2 hv
  | c :: cs, u, v, h, hv => by
    cases u with
    | nil => exact .inl rfl
    | cons l u =>
      rw [linesOf] at h
      split at h
      · rw [List.cons_append, List.cons.injEq] at h
        obtain ⟨rfl, h⟩ := h
        rcases whole_before h hv with e | ⟨m, e⟩
        · exact .inr ⟨[], by rw [List.flatten_cons, e]; rfl⟩
        · exact .inr ⟨'\n' :: m, by rw [List.flatten_cons, e]; rfl⟩
      · split at h
        · rw [List.cons_append, List.cons.injEq] at h
          exact absurd (List.append_eq_nil_iff.1 h.2.symm).2 hv
        · rename_i l' ls e
          rw [List.cons_append, List.cons.injEq] at h
          obtain ⟨rfl, rfl⟩ := h
          rcases whole_before (u := l' :: u) e hv with e' | ⟨m, e'⟩
          · rw [List.flatten_cons] at e'
            exact absurd (List.append_eq_nil_iff.1 e').1 (linesOf_ne cs l' (by rw [e]; simp))
          · rw [List.flatten_cons] at e'
            exact .inr ⟨c :: m, by rw [List.flatten_cons, List.cons_append, e']; rfl⟩

theorem heading_full : FullLine rulesHeading := ⟨"## Rules".toList, by decide, by decide⟩

theorem until_cons (l : List Char) (ls : List (List Char)) : untilHeading (l :: ls) = if l = rulesHeading then [l] else l :: untilHeading ls := rfl

theorem until_first : ∀ {A R : List (List Char)}, rulesHeading ∉ A → untilHeading (A ++ rulesHeading :: R) = A ++ [rulesHeading]
  | [], R, _ => by rw [List.nil_append, until_cons, if_pos rfl]; rfl
  | l :: A, R, h => by
    rw [List.mem_cons, not_or] at h
    rw [List.cons_append, until_cons, if_neg (Ne.symm h.1), until_first h.2]
    rfl

theorem until_none : ∀ {A : List (List Char)}, rulesHeading ∉ A → untilHeading A = A
  | [], _ => rfl
  | l :: A, h => by
    rw [List.mem_cons, not_or] at h
    rw [until_cons, if_neg (Ne.symm h.1), until_none h.2]

/-- a line of the text follows whole lines -/
theorem line_after {text : List Char} {u v : List (List Char)} (h : linesOf text = u ++ rulesHeading :: v) :
    LineAfter u.flatten rulesHeading text := by
  refine ⟨whole_before h (by simp), v.flatten, ?_⟩
  rw [← linesOf_flatten text, h]
  simp

/-- (C90) what precedes the heading is kept, and nothing after it -/
theorem kept_heading {a text : List Char} (h : FirstLine a rulesHeading text) : (untilHeading (linesOf text)).flatten = a ++ rulesHeading := by
  obtain ⟨⟨hw, rest, rfl⟩, hmin⟩ := h
  have e : linesOf (a ++ rulesHeading ++ rest) = linesOf a ++ rulesHeading :: linesOf rest := by
    rw [List.append_assoc, linesOf_whole hw, linesOf_cons heading_full]
  have hn : rulesHeading ∉ linesOf a := by
    intro hm
    obtain ⟨u, v, huv⟩ := List.append_of_mem hm
    have h1 := hmin u.flatten (line_after (v := v ++ rulesHeading :: linesOf rest) (by rw [e, huv]; simp))
    have h2 : a = u.flatten ++ rulesHeading ++ v.flatten := by rw [← linesOf_flatten a, huv]; simp
    have h3 := congrArg List.length h2
    have h4 : rulesHeading.length = 9 := by decide
    rw [List.length_append, List.length_append] at h3
    omega
  rw [e, until_first hn, List.flatten_append, linesOf_flatten]
  simp

/-- without the heading the whole text is kept -/
theorem kept_all {text : List Char} (h : ∀ a, ¬ LineAfter a rulesHeading text) : (untilHeading (linesOf text)).flatten = text := by
  rw [until_none, linesOf_flatten]
  intro hm
  obtain ⟨u, v, huv⟩ := List.append_of_mem hm
  exact h _ (line_after huv)

/-- the first line is unique, and there is one if there is any -/
theorem firstLine_exists {text : List Char} (h : ∃ a, LineAfter a rulesHeading text) : ∃ a, FirstLine a rulesHeading text := by
  classical
  let P : Nat → Prop := fun n => ∃ a, LineAfter a rulesHeading text ∧ a.length = n
  have hP : ∃ n, P n := by obtain ⟨a, ha⟩ := h; exact ⟨_, a, ha, rfl⟩
  obtain ⟨a, ha, hl⟩ := Nat.find_spec hP
  exact ⟨a, ha, fun b hb => by rw [hl]; exact Nat.find_min' hP ⟨b, hb, rfl⟩⟩

/-- the row of a rule -/
def rowOf (r : RuleInfo) (d : RuleText) (f : String) : String :=
  let id := r.id ++ (if r.experimental then "*" else "")
  tableRow [linkTo (id ++ "<a name=\"" ++ id ++ "\"></a>") ("../" ++ f), d.title, d.description,
    String.intercalate "<br />" (d.options.map (fun o => String.intercalate ":" [o.1, o.2.1, o.2.2])), linkTo "Source" d.url,
    String.intercalate "," (d.tags.map (fun t => "`" ++ t ++ "`"))]

theorem docRow_eq (r : RuleInfo) (d : RuleText) (f : String) : docRow r d f = rowOf r d f := by
  have h3 : ∀ a b c : String, String.intercalate ":" [a, b, c] = a ++ ":" ++ b ++ ":" ++ c := by
    intro a b c; rfl
  have h6 : ∀ a b c d e f : String, String.intercalate " | " [a, b, c, d, e, f] = a ++ " | " ++ b ++ " | " ++ c ++ " | " ++ d ++ " | " ++ e ++ " | " ++ f := by
    intro a b c d e f; rfl
  unfold docRow rowOf tableRow linkTo
  simp only [h3, h6]
  generalize String.intercalate "<br />" _ = x
  generalize String.intercalate "," _ = y
  have e1 : "| [" = "| " ++ "[" := rfl
  have e2 : "\"></a>](" = "\"></a>" ++ "](" := rfl
  have e3 : ") | " = ")" ++ " | " := rfl
  have e4 : " | [Source](" = " | " ++ ("[" ++ ("Source" ++ "](")) := rfl
  have e5 : ∀ s : String, s ++ "" = s := fun _ => String.append_empty
  cases r.experimental <;> simp only [e1, e2, e3, e4, e5, String.append_assoc, if_true, if_false, Bool.false_eq_true]

theorem docRows_ok {grep : String → Option String} : ∀ {l : List (RuleInfo × RuleText)} {src : RuleInfo → String},
    (∀ rd ∈ l, grep rd.1.id = some (src rd.1)) →
    docRows grep l = ((l.map (fun rd => (rowOf rd.1 rd.2 (src rd.1)).toList)).flatten ++ docEnd, false)
  | [], _, _ => by rw [docRows, List.map_nil, List.flatten_nil, List.nil_append]
  | (r, d) :: l, src, h => by
    rw [docRows, h (r, d) List.mem_cons_self]
    simp only [docRows_ok (fun rd hrd => h rd (List.mem_cons_of_mem _ hrd)), docRow_eq, List.map_cons, List.flatten_cons, List.append_assoc]

theorem docRows_raised {grep : String → Option String} : ∀ {l : List (RuleInfo × RuleText)}, (docRows grep l).2 = true ↔ ∃ rd ∈ l, grep rd.1.id = none
  | [] => by
    rw [docRows]
    exact ⟨fun h => (by cases h), fun ⟨_, h, _⟩ => (by cases h)⟩
  | (r, d) :: l => by
    rw [docRows]
    cases hg : grep r.id with
    | none => simp [hg]
    | some f => simp [hg, docRows_raised (l := l)]

theorem docEnd_eq : docEnd = tableEnd := rfl

theorem docIntro_eq (n : Nat) : docIntro n = tableStart (n + 3) := by
  have h6 : ∀ a b c d e f : String, String.intercalate " | " [a, b, c, d, e, f] = a ++ " | " ++ b ++ " | " ++ c ++ " | " ++ d ++ " | " ++ e ++ " | " ++ f := by
    intro a b c d e f; rfl
  unfold docIntro tableStart
  have e1 : "| Rule ID  | Title | Description | Config<br />(Name:Type:Default) | Source | Tags |\n" =
    tableRow ["Rule ID ", "Title", "Description", "Config<br />(Name:Type:Default)", "Source", "Tags"] := by
    rw [tableRow, h6]; decide +kernel
  have e2 : "| -------- | ----- | ----------- | ---------- | ------ | ---- |\n" =
    tableRow ["--------", "-----", "-----------", "----------", "------", "----"] := by
    rw [tableRow, h6]; decide +kernel
  rw [e1, e2]
  simp only [String.toList_append, List.append_assoc]

/-- (C90) the part by hand is kept, and the table lists the three rules of the linter itself and then each given rule once, in the order of their
names, with its title, description, options, source and tags; the number stated is that of the rows -/
theorem C90_table {grep : String → Option String} {texts : RuleInfo → RuleText} {rules : List RuleInfo} {a text : List Char}
    (h : FirstLine a rulesHeading text) {src : RuleInfo → String}
    (hg : ∀ r, (r ∈ rules ∨ r ∈ ownRules.map Prod.fst) → grep r.id = some (src r)) :
    ∃ rows : List (RuleInfo × RuleText), (∃ sorted : List RuleInfo, sorted.Perm rules ∧ sorted.Pairwise (fun x y => x.id ≤ y.id) ∧
        rows = ownRules ++ sorted.map (fun r => (r, texts r))) ∧
      updateDocs grep texts rules text = (a ++ rulesHeading ++ tableStart rows.length ++
        (rows.map (fun rd => (rowOf rd.1 rd.2 (src rd.1)).toList)).flatten ++ tableEnd, false) := by
  refine ⟨ownRules ++ (rules.mergeSort idLe).map (fun r => (r, texts r)), ⟨rules.mergeSort idLe, List.mergeSort_perm _ _, ?_, rfl⟩, ?_⟩
  · exact (List.pairwise_mergeSort idLe_trans idLe_total rules).imp (fun h => by simpa [idLe] using h)
  · have hrows := docRows_ok (grep := grep) (l := ownRules ++ (rules.mergeSort idLe).map (fun r => (r, texts r))) (src := src) (by
      intro rd hrd
      rcases List.mem_append.1 hrd with hm | hm
      · exact hg _ (.inr (List.mem_map_of_mem hm))
      · obtain ⟨r, hr, rfl⟩ := List.mem_map.1 hm
        exact hg _ (.inl ((List.mergeSort_perm _ _).mem_iff.1 hr)))
    have hlen : (ownRules ++ (rules.mergeSort idLe).map (fun r => (r, texts r))).length = (rules.mergeSort idLe).length + 3 := by
      rw [List.length_append, List.length_map, Nat.add_comm]; rfl
    unfold updateDocs
    simp only [hrows, hlen]
    rw [kept_heading h, docIntro_eq, docEnd_eq, List.append_assoc, List.append_assoc, List.append_assoc, List.append_assoc, List.append_assoc]

/-- (C90) running it again changes nothing -/
def C90_statement : Prop := ∀ (grep : String → Option String) (texts : RuleInfo → RuleText) (rules : List RuleInfo) (text : List Char),
    (updateDocs grep texts rules text).2 = false → updateDocs grep texts rules (updateDocs grep texts rules text).1 = updateDocs grep texts rules text

theorem until_prefix : ∀ {A : List (List Char)}, rulesHeading ∈ A → ∀ R, untilHeading (untilHeading A ++ R) = untilHeading A
  | [], h, _ => by cases h
  | l :: A, h, R => by
    rw [until_cons]
    by_cases hl : l = rulesHeading
    · rw [if_pos hl, List.singleton_append, until_cons, if_pos hl]
    · rw [if_neg hl, List.cons_append, until_cons, if_neg hl]
      rw [until_prefix (by rcases List.mem_cons.1 h with h | h; exact absurd h.symm hl; exact h)]

theorem until_sub : ∀ {A : List (List Char)}, ∀ l ∈ untilHeading A, l ∈ A
  | [], l, h => by cases h
  | x :: A, l, h => by
    rw [until_cons] at h
    split at h
    · cases List.mem_singleton.1 h; simp
    · rcases List.mem_cons.1 h with rfl | h
      · simp
      · exact List.mem_cons_of_mem _ (until_sub l h)

/-- (C90) with the heading, running it again changes nothing, whatever follows the heading -/
theorem C90_idempotent_partial {a text : List Char} (h : LineAfter a rulesHeading text) (grep : String → Option String)
    (texts : RuleInfo → RuleText) (rules : List RuleInfo) :
    updateDocs grep texts rules (updateDocs grep texts rules text).1 = updateDocs grep texts rules text := by
  obtain ⟨a, h⟩ := firstLine_exists ⟨a, h⟩
  have hk := kept_heading h
  have hw : WholeLines a := h.1.1
  have hnew : ∀ X, (untilHeading (linesOf (a ++ rulesHeading ++ X))).flatten = a ++ rulesHeading := by
    intro X
    have hn : rulesHeading ∉ linesOf a := by
      intro hm
      obtain ⟨u, v, huv⟩ := List.append_of_mem hm
      obtain ⟨⟨-, rest, rfl⟩, hmin⟩ := h
      have e : linesOf (a ++ rulesHeading ++ rest) = linesOf a ++ rulesHeading :: linesOf rest := by
        rw [List.append_assoc, linesOf_whole hw, linesOf_cons heading_full]
      have h1 := hmin u.flatten (line_after (v := v ++ rulesHeading :: linesOf rest) (by rw [e, huv]; simp))
      have h2 : a = u.flatten ++ rulesHeading ++ v.flatten := by rw [← linesOf_flatten a, huv]; simp
      have h3 := congrArg List.length h2
      have h4 : rulesHeading.length = 9 := by decide
      rw [List.length_append, List.length_append] at h3
      omega
    rw [List.append_assoc, linesOf_whole hw, linesOf_cons heading_full, until_first hn, List.flatten_append, linesOf_flatten]
    simp
  unfold updateDocs
  simp only
  rw [hk, List.append_assoc (a ++ rulesHeading), hnew, List.append_assoc (a ++ rulesHeading)]

/-- (C90) what follows the heading does not matter -/
theorem C90_rest_dropped {a text text' : List Char} (h : FirstLine a rulesHeading text) (h' : FirstLine a rulesHeading text')
    (grep : String → Option String) (texts : RuleInfo → RuleText) (rules : List RuleInfo) :
    updateDocs grep texts rules text = updateDocs grep texts rules text' := by
  unfold updateDocs
  simp only
  rw [kept_heading h, kept_heading h']

/-- (C90) without the heading the text grows with each run: the statement fails -/
theorem C90_violated : ¬ C90_statement := by
  intro h
  have := h (fun _ => some "f") (fun _ => ⟨"", "", "", [], []⟩) [] [] (by decide +kernel)
  have hl := congrArg (fun r => r.1.length) this
  revert hl
  decide +kernel

/-- (C90) the file is either left alone or written completely -/
def C90_crash_statement : Prop := ∀ (grep : String → Option String) (texts : RuleInfo → RuleText) (rules : List RuleInfo) (text : List Char),
    (updateDocs grep texts rules text).2 = true → (updateDocs grep texts rules text).1 = text

/-- (C90) it raises exactly if the source of a rule is not found -/
theorem C90_raises_iff {grep : String → Option String} {texts : RuleInfo → RuleText} {rules : List RuleInfo} {text : List Char} :
    (updateDocs grep texts rules text).2 = true ↔ ∃ r, (r ∈ rules ∨ r ∈ ownRules.map Prod.fst) ∧ grep r.id = none := by
  unfold updateDocs
  simp only
  rw [docRows_raised]
  constructor
  · rintro ⟨rd, hm, hg⟩
    rcases List.mem_append.1 hm with hm | hm
    · exact ⟨_, .inr (List.mem_map_of_mem hm), hg⟩
    · obtain ⟨r, hr, rfl⟩ := List.mem_map.1 hm
      exact ⟨r, .inl ((List.mergeSort_perm _ _).mem_iff.1 hr), hg⟩
  · rintro ⟨r, hm | hm, hg⟩
    · exact ⟨(r, texts r), List.mem_append_right _ (List.mem_map.2 ⟨r, (List.mergeSort_perm _ _).mem_iff.2 hm, rfl⟩), hg⟩
    · obtain ⟨rd, hrd, rfl⟩ := List.mem_map.1 hm
      exact ⟨rd, List.mem_append_left _ hrd, hg⟩

/-- (C90) if it raises, what followed the heading is lost -/
theorem C90_crash_violated : ¬ C90_crash_statement := by
  intro h
  have := h (fun _ => none) (fun _ => ⟨"", "", "", [], []⟩) [] "## Rules\nold".toList (by decide +kernel)
  revert this
  decide +kernel

open Classical in
/-- (C90) the rules given are all whose names begin with one of the letters, also the experimental ones -/
theorem C90_rules {objs : List RuleObj} {l : List RuleInfo} (h : documentedRules objs = .ok l) :
    l = (objs.map RuleObj.info).filter (fun r => decide (IsPrefix "I" r.id ∨ IsPrefix "E" r.id ∨ IsPrefix "W" r.id)) := by
  unfold documentedRules at h
  cases hg : getRules objs { ignore := [], incl := [.str "I", .str "E", .str "W"], configureRules := [], includeExperimental := true, mandatory := [] } with
  | error e => rw [hg] at h; cases h
  | ok c =>
    rw [hg] at h
    cases h
    refine getRules_infos (s := ⟨[], ["I", "E", "W"], [], true, []⟩) _ (fun r => ?_) (getRules_ok hg)
    rw [decide_eq_true_iff]
    unfold Enabled
    simp
    tauto

example : FirstLine [] rulesHeading "## Rules\nold".toList := ⟨⟨.inl rfl, "old".toList, by decide⟩, fun _ _ => Nat.zero_le _⟩

end CfnLint
