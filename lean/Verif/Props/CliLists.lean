import Verif.Model.CliLists
import Verif.Spec.CliLists
import Verif.Lemmas.Split
import Verif.Props.Rules
/-
Property C99: the list options of the command line.
-/
namespace CfnLint
open Spec

/-- `",".intercalate` on characters -/
theorem toList_intercalate (l : List String) :
    (",".intercalate l).toList = List.intercalate [','] (l.map String.toList) := by
  rw [String.toList_intercalate]; rfl

theorem intercalate_comma : ∀ l : List Char, List.intercalate [','] (splitOn ',' l) = l := by
  intro l
  induction l with
  | nil => rfl
  | cons x xs ih =>
    have hne := splitOn_ne_nil ',' xs
    unfold splitOn
    by_cases hx : x = ','
    · rw [if_pos hx]
      match hs : splitOn ',' xs, hne with
      | y :: ys, _ =>
        rw [hs] at ih
        subst hx
        rw [← ih]
        simp [List.intercalate]
    · rw [if_neg hx]
      match hs : splitOn ',' xs, hne with
      | [y], _ => rw [hs] at ih; rw [← ih]; simp [List.intercalate]
      | y :: z :: ys, _ => rw [hs] at ih; rw [← ih]; simp [List.intercalate]

theorem splitOn_no_comma : ∀ (l : List Char), ∀ p ∈ splitOn ',' l, ',' ∉ p
  | [] => by simp [splitOn]
  | x :: xs => by
    have ih := splitOn_no_comma xs
    have hne := splitOn_ne_nil ',' xs
    unfold splitOn
    by_cases hx : x = ','
    · rw [if_pos hx]
      intro p hp
      rcases List.mem_cons.1 hp with rfl | hp
      · simp
      · exact ih p hp
    · rw [if_neg hx]
      match hs : splitOn ',' xs, hne with
      | y :: ys, _ =>
        rw [hs] at ih
        intro p hp
        rcases List.mem_cons.1 hp with rfl | hp
        · simp only [List.mem_cons, not_or]
          exact ⟨Ne.symm hx, ih y List.mem_cons_self⟩
        · exact ih p (List.mem_cons_of_mem _ hp)

theorem splitOn_intercalate : ∀ (l : List (List Char)), l ≠ [] → (∀ p ∈ l, ',' ∉ p) →
    splitOn ',' (List.intercalate [','] l) = l
  | [], h, _ => absurd rfl h
  | [p], _, h => by
    have : List.intercalate [','] [p] = p := by simp [List.intercalate]
    rw [this, splitOn_plain (h p List.mem_cons_self)]
  | p :: q :: ps, _, h => by
    have : List.intercalate [','] (p :: q :: ps) = p ++ ',' :: List.intercalate [','] (q :: ps) := by
      simp [List.intercalate]
    rw [this, splitOn_append _ (h p List.mem_cons_self),
      splitOn_intercalate (q :: ps) (by simp) (fun x hx => h x (List.mem_cons_of_mem _ hx))]

/-- C99: an argument is split into its pieces between commas, and there is only one way to do so. -/
theorem C99_pieces (s : String) (l : List String) : commaSeparated s = l ↔ CommaPieces s l := by
  unfold commaSeparated CommaPieces
  constructor
  · rintro rfl
    refine ⟨by simp [splitOn_ne_nil], ?_, ?_⟩
    · intro p hp
      obtain ⟨q, hq, rfl⟩ := List.mem_map.1 hp
      rw [String.toList_ofList]
      exact splitOn_no_comma _ q hq
    · apply String.toList_injective
      rw [toList_intercalate, List.map_map]
      have : (String.toList ∘ String.ofList) = id := by funext x; simp
      rw [this, List.map_id, intercalate_comma]
  · rintro ⟨h0, h1, rfl⟩
    rw [toList_intercalate, splitOn_intercalate]
    · rw [List.map_map]
      have : (String.ofList ∘ String.toList) = id := by funext x; simp
      rw [this, List.map_id]
    · simpa using h0
    · intro p hp
      obtain ⟨q, hq, rfl⟩ := List.mem_map.1 hp
      exact h1 q hq

theorem extendItems_elements {split : Bool} : ∀ {args l : List String}, Elements split args l →
    ∀ items, extendItems items (args.map (convertArg split)) = items ++ l := by
  intro args l h
  induction h with
  | none => intro items; simp [extendItems]
  | whole hs _ ih =>
    intro items
    subst hs
    simp only [List.map_cons, convertArg, Bool.false_eq_true, if_false, extendItems]
    rename_i s ss l _
    have := ih (items ++ [s])
    change extendItems (items ++ [s]) (ss.map (convertArg false)) = _
    rw [this]; simp
  | pieces hs hp _ ih =>
    intro items
    subst hs
    simp only [List.map_cons, convertArg, if_true, extendItems]
    rw [(C99_pieces _ _).2 hp]
    rename_i s ss p l _
    have := ih (items ++ p)
    change extendItems (items ++ p) (ss.map (convertArg true)) = _
    rw [this]; simp

theorem elements_exist (split : Bool) : ∀ args : List String, ∃ l, Elements split args l
  | [] => ⟨[], .none⟩
  | s :: ss => by
    obtain ⟨l, hl⟩ := elements_exist split ss
    cases split with
    | false => exact ⟨_, .whole rfl hl⟩
    | true => exact ⟨_, .pieces rfl ((C99_pieces s _).1 rfl) hl⟩

/-- C99: the value of a list option that occurs is its default followed by what the arguments of all
occurrences stand for, in the order of the command line. -/
theorem C99_value (o : ListOption) (args : List String) (occs : List (List String)) (l : List String)
    (h : Elements o.split (args :: occs).flatten l) :
    (o.parse (args :: occs)).1 = some (o.dflt.getD [] ++ l) := by
  unfold ListOption.parse
  have key : ∀ (occs : List (List String)) (items l : List String),
      Elements o.split occs.flatten l → extendOccs o.split (some items) occs = some (items ++ l) := by
    intro occs
    induction occs with
    | nil => intro items l h; cases h; simp [extendOccs]
    | cons a occs ih =>
      intro items l h
      obtain ⟨l1, h1⟩ := elements_exist o.split a
      obtain ⟨l2, h2⟩ := elements_exist o.split occs.flatten
      have happ : ∀ {a b l1 l2 : List String}, Elements o.split a l1 → Elements o.split b l2 →
          Elements o.split (a ++ b) (l1 ++ l2) := by
        intro a b l1 l2 h1 h2
        induction h1 with
        | none => exact h2
        | whole hs _ ih => exact .whole hs ih
        | pieces hs hp _ ih => rw [List.append_assoc]; exact .pieces hs hp ih
      have h12 := happ h1 h2
      have hl : l = l1 ++ l2 := by
        have e1 := extendItems_elements h []
        have e2 := extendItems_elements h12 []
        rw [List.flatten_cons] at e1
        rw [e1] at e2
        simpa using e2
      unfold extendOccs extendAction
      rw [extendItems_elements h1, ih _ _ h2, hl]
      simp
  have hsome : extendOccs o.split o.dflt (args :: occs) =
      extendOccs o.split (some (o.dflt.getD [])) (args :: occs) := by
    unfold extendOccs extendAction
    simp
  show extendOccs o.split o.dflt (args :: occs) = _
  rw [hsome, key _ _ _ h]

/-- C99: an option that does not occur has its default. -/
theorem C99_absent (o : ListOption) : (o.parse []).1 = o.dflt := rfl

/-- C99: it does not matter how the elements are spread over arguments and occurrences: `-i A,B`,
`-i A B` and `-i A -i B` are the same. -/
theorem C99_grouping (o : ListOption) (occs occs' : List (List String)) (h : occs ≠ [])
    (h' : occs' ≠ []) (l : List String) (hl : Elements o.split occs.flatten l)
    (hl' : Elements o.split occs'.flatten l) : (o.parse occs).1 = (o.parse occs').1 := by
  cases occs with
  | nil => exact absurd rfl h
  | cons a occs =>
    cases occs' with
    | nil => exact absurd rfl h'
    | cons b occs' => rw [C99_value o a occs l hl, C99_value o b occs' l hl']

/-- C99: a checked rule is one the lists of the command line select: included by `W`, `E` or an element of
`-c`, and either mandatory or not ignored. -/
theorem C99_rules (r : RuleInfo) (e : Bool) (ign inc man : List (List String)) (li lc lm : List String)
    (hi : Elements true ign.flatten li) (hc : Elements true inc.flatten lc)
    (hm : Elements true man.flatten lm) (o : ListOption) (ho : o = ⟨some [], true⟩) :
    isEnabled r e (((o.parse ign).1.getD []).map .str)
      (.str "W" :: .str "E" :: ((o.parse inc).1.getD []).map .str)
      (((o.parse man).1.getD []).map .str) = .ok true ↔
    Enabled r.id r.experimental e li ("W" :: "E" :: lc) lm := by
  have val : ∀ (occs : List (List String)) (l : List String), Elements true occs.flatten l →
      ((o.parse occs).1.getD []) = l := by
    intro occs l hl
    subst ho
    cases occs with
    | nil => cases hl; rfl
    | cons a occs => rw [C99_value _ a occs l hl]; rfl
  rw [val ign li hi, val inc lc hc, val man lm hm]
  exact C01_enabled_iff r e li ("W" :: "E" :: lc) lm

/-- C99, of commas: a rule is checked only if its id begins with `W`, `E` or something listed with `-c`;
a stray comma lists nothing. -/
def C99_statement : Prop :=
  ∀ (r : RuleInfo) (args lc : List String), Elements true args lc →
    isEnabled r false [] (.str "W" :: .str "E" :: (((⟨some [], true⟩ : ListOption).parse [args]).1.getD
      []).map .str) [] = .ok true →
    ∃ p ∈ "W" :: "E" :: lc, p ≠ "" ∧ IsPrefix p r.id

/-- C99 fails of commas: the empty piece behind a last comma is a prefix of every id, so `-c I3042,`
includes all rules. -/
theorem C99_comma_violated : ¬ C99_statement := by
  intro h
  obtain ⟨p, hp, hne, hpre⟩ := h ⟨"I9999", false⟩ ["I3042,"] ["I3042", ""]
    (.pieces (p := ["I3042", ""]) rfl ((C99_pieces _ _).1 (by decide)) .none) (by decide)
  simp only [List.mem_cons, List.not_mem_nil, or_false] at hp
  have hd : ∀ q ∈ ["W", "E", "I3042"], ¬ IsPrefix q "I9999" := by
    intro q hq hp
    simp only [List.mem_cons, List.not_mem_nil, or_false] at hq
    obtain ⟨t, ht⟩ := hp
    have h := congrArg String.toList ht
    rw [String.toList_append] at h
    rcases hq with rfl | rfl | rfl <;> (revert h; simp)
  rcases hp with rfl | rfl | rfl | rfl
  · exact hd _ (by simp) hpre
  · exact hd _ (by simp) hpre
  · exact hd _ (by simp) hpre
  · exact hne rfl

/-- C99, what holds of commas: with no empty piece only listed rules are checked. Missing: a comma at the
beginning, at the end or beside another. -/
theorem C99_comma_partial (r : RuleInfo) (args lc : List String) (hc : Elements true args lc)
    (hne : "" ∉ lc)
    (h : isEnabled r false [] (.str "W" :: .str "E" :: (((⟨some [], true⟩ : ListOption).parse [args]).1.getD
      []).map .str) [] = .ok true) :
    ∃ p ∈ "W" :: "E" :: lc, p ≠ "" ∧ IsPrefix p r.id := by
  have := (C99_rules r false [] [args] [] [] lc [] .none (by simpa using hc) .none _ rfl).1 h
  obtain ⟨_, ⟨p, hp, hpre⟩, _⟩ := this
  refine ⟨p, hp, ?_, hpre⟩
  rintro rfl
  simp only [List.mem_cons] at hp
  rcases hp with hp | hp | hp
  · exact absurd hp (by decide)
  · exact absurd hp (by decide)
  · exact hne hp

/-- C99: in the list of rules to ignore an empty piece does nothing. -/
theorem C99_ignore_comma (r : RuleInfo) (e : Bool) (args : List String) (inc man : List String) :
    isEnabled r e ((((⟨some [], true⟩ : ListOption).parse [args]).1.getD []).map .str) (inc.map .str)
      (man.map .str) = .ok true ↔
    ∀ l, Elements true args l → Enabled r.id r.experimental e (l.filter (· ≠ "")) inc man := by
  obtain ⟨l, hl⟩ := elements_exist true args
  have hv := C99_value ⟨some [], true⟩ args [] l (by simpa using hl)
  have huniq : ∀ l', Elements true args l' → l' = l := by
    intro l' hl'
    have e1 := extendItems_elements hl []
    have e2 := extendItems_elements hl' []
    rw [e1] at e2
    simpa using e2.symm
  rw [hv]
  show isEnabled r e (l.map .str) _ _ = _ ↔ _
  rw [C01_empty_ignore_inert, C01_enabled_iff]
  exact ⟨fun h l' hl' => huniq l' hl' ▸ h, fun h => h l hl⟩

/-- C99, of parsers: parsing the same command line again gives the same lists. -/
def C99_again_statement : Prop :=
  ∀ (o : ListOption) (occs : List (List String)), ((o.parse occs).2.parse occs).1 = (o.parse occs).1

/-- C99 fails of parsers: a default list is extended in place, so the parser remembers. -/
theorem C99_again_violated : ¬ C99_again_statement := by
  intro h
  have := h ⟨some [], true⟩ [["E3012"]]
  revert this; decide

/-- C99, what holds of parsers: the same again from an option without occurrences or with the default
`None`, and always from a new parser, which is how the program parses. -/
theorem C99_again_partial (o : ListOption) (occs : List (List String)) (h : occs = [] ∨ o.dflt = none) :
    ((o.parse occs).2.parse occs).1 = (o.parse occs).1 := by
  rcases h with rfl | h
  · obtain ⟨d, s⟩ := o
    cases d <;> rfl
  · obtain ⟨d, s⟩ := o
    dsimp only at h
    subst h
    rfl

/-- C99: the options of the program. Those that take rules, regions and schemas are split at commas, those that take templates are
not; all but `registry_schemas` are an empty list when they do not occur. -/
theorem C99_options (n : String) (o : ListOption) : listOptionOf n = some o ↔
    (n ∈ ["regions", "append_rules", "ignore_checks", "include_checks", "mandatory_checks"] ∧ o.split = true ∧ (o.parse []).1 = some []) ∨
    (n ∈ ["template_alt", "ignore_templates"] ∧ o.split = false ∧ (o.parse []).1 = some []) ∨
    (n = "registry_schemas" ∧ o.split = true ∧ (o.parse []).1 = none) := by
  obtain ⟨d, s⟩ := o
  constructor
  · intro h
    unfold listOptionOf at h
    split at h <;> first | (cases h; done) | (cases h; simp [ListOption.parse, extendOccs])
  · simp only [ListOption.parse, extendOccs, List.mem_cons, List.not_mem_nil, or_false]
    rintro (⟨rfl | rfl | rfl | rfl | rfl, rfl, rfl⟩ | ⟨rfl | rfl, rfl, rfl⟩ | ⟨rfl, rfl, rfl⟩) <;> rfl

/-! ### Examples -/

example : (ListOption.parse ⟨some [], true⟩ [["A,B", "C"], ["D"]]).1 = some ["A", "B", "C", "D"] := by decide
example : (ListOption.parse ⟨some [], false⟩ [["A,B", "C"], ["D"]]).1 = some ["A,B", "C", "D"] := by decide
example : (ListOption.parse ⟨none, true⟩ []).1 = none := by decide
example : Elements true ["A,B", "C"] (["A", "B"] ++ (["C"] ++ [])) :=
  .pieces rfl ((C99_pieces _ _).1 (by decide)) (.pieces rfl ((C99_pieces _ _).1 (by decide)) .none)
-- a comma that stands alone makes every rule mandatory
example : isEnabled ⟨"E3012", false⟩ false [.str "E3012"] [.str "W", .str "E"]
    ((commaSeparated ",").map .str) = .ok true := by decide

end CfnLint
