import Verif.Model.SectionNames
import Verif.Props.Limits
import Verif.Props.Regex
import Verif.Props.Declared
/-
C122: the names in the sections of a template.
-/
namespace CfnLint
open Spec

theorem oddNames_ok (s : Sect) : ∀ {kvs : List (Key × Val)}, (∀ k v, (k, v) ∈ kvs → ∃ n, k = .str n) →
    ∃ l, gatherAll (oddName s) kvs = .ok l ∧ (∀ m, m ∈ l ↔ ∃ n v, (Key.str n, v) ∈ kvs ∧ ¬ MaybeBreak Alnum n ∧ m = ⟨[.str s.key, .str n], sectionNameText s n⟩) ∧
      (l.map (fun m => m.path)).Sublist (kvs.map (fun kv => [.str s.key, kv.1.toVal]))
  | [], _ => ⟨[], rfl, fun m => ⟨fun h => (by cases h), fun ⟨_, _, h, _⟩ => (by cases h)⟩, List.Sublist.refl _⟩
  | (k, v) :: kvs, h => by
    obtain ⟨n, rfl⟩ := h k v List.mem_cons_self
    obtain ⟨l, h1, h2, h3⟩ := oddNames_ok s (kvs := kvs) (fun k v hm => h k v (List.mem_cons_of_mem _ hm))
    rw [gatherAll, oddName, h1]
    dsimp only
    by_cases hb : regexAlphanumeric.matchesAll n = true
    · rw [if_pos hb]
      refine ⟨l, rfl, fun m => ?_, h3.cons _⟩
      rw [h2]
      constructor
      · rintro ⟨n', v', hm, r⟩
        exact ⟨n', v', List.mem_cons_of_mem _ hm, r⟩
      · rintro ⟨n', v', hm, hno, r⟩
        rcases List.mem_cons.1 hm with e | hm
        · cases e
          exact absurd ((C74_alphanumeric n).1 hb) hno
        · exact ⟨n', v', hm, hno, r⟩
    · rw [if_neg hb]
      refine ⟨_, rfl, fun m => ?_, h3.cons_cons _⟩
      rw [List.singleton_append, List.mem_cons, h2]
      constructor
      · rintro (rfl | ⟨n', v', hm, r⟩)
        · exact ⟨n, v, List.mem_cons_self, fun hm => hb ((C74_alphanumeric n).2 hm), rfl⟩
        · exact ⟨n', v', List.mem_cons_of_mem _ hm, r⟩
      · rintro ⟨n', v', hm, hno, r⟩
        rcases List.mem_cons.1 hm with e | hm
        · cases e
          exact .inl r
        · exact .inr ⟨n', v', hm, hno, r⟩

/-- **C122**: the rules find the names of the section that have other characters than letters and digits, apart from a line break at the end: each of them once. -/
theorem C122_names {top : List (Key × Val)} (hw : (Val.dict top).WF) (s : Sect) (hsec : ∀ v, At (.dict top) [.str s.key] v → ∃ kvs, v = .dict kvs ∧ ∀ k w, (k, w) ∈ kvs → ∃ n, k = .str n) :
    ∃ l, alphanumericName (.dict top) s = .ok l ∧ (l.map (fun m => m.path)).Nodup ∧
      ∀ m, m ∈ l ↔ ∃ n v, At (.dict top) [.str s.key, .str n] v ∧ ¬ MaybeBreak Alnum n ∧
        m = ⟨[.str s.key, .str n], s.single ++ " " ++ n ++ " has invalid name.  Name has to be alphanumeric."⟩ := by
  have hw' := hw
  rw [Val.WF] at hw
  unfold alphanumericName
  dsimp only [Val.getD]
  cases hl : dlookup (Key.str s.key) top with
  | none =>
    refine ⟨[], rfl, List.nodup_nil, fun m => ⟨fun h => (by cases h), ?_⟩⟩
    rintro ⟨n, v, h, -⟩
    cases h with
    | key hm _ =>
      rw [dlookup_of_mem hw.1 hm] at hl
      cases hl
  | some v =>
    have hv := at_dict_one.2 (dlookup_mem hl)
    obtain ⟨kvs, rfl, htext⟩ := hsec v hv
    have hn := at_wf hv hw'
    rw [Val.WF] at hn
    rw [Option.getD_some]
    obtain ⟨l, h1, h2, h3⟩ := oddNames_ok s htext
    refine ⟨l, h1, h3.nodup ?_, fun m => ?_⟩
    · have : kvs.map (fun kv => [Val.str s.key, kv.1.toVal]) = (kvs.map Prod.fst).map (fun k => [Val.str s.key, k.toVal]) := by simp
      rw [this]
      refine hn.1.map ?_
      intro a b e
      cases a <;> cases b <;> simp [Key.toVal] at e <;> rw [e]
    · rw [h2]
      refine exists_congr (fun n => exists_congr (fun w => and_congr_left (fun _ => ?_)))
      constructor
      · exact fun h => .key (dlookup_mem hl) (.key h .here)
      · intro h
        cases h with
        | key hm h' =>
          have := dlookup_of_mem hw.1 hm
          rw [hl] at this
          cases this
          exact at_dict_one.1 h'

/-- **C122**, in full: a name is found where it has other characters than letters and digits -/
def C122_names_statement : Prop :=
  ∀ (top : List (Key × Val)) (s : Sect) (kvs : List (Key × Val)), (Val.dict top).WF → At (.dict top) [.str s.key] (.dict kvs) → (∀ k w, (k, w) ∈ kvs → ∃ n, k = .str n) →
    ∃ l, alphanumericName (.dict top) s = .ok l ∧ ∀ n v, (Key.str n, v) ∈ kvs → ((∃ m ∈ l, m.path = [.str s.key, .str n]) ↔ ¬ Alnum n.toList)

/-- **C122**: it holds for names that do not end with a line break. -/
theorem C122_names_partial {top : List (Key × Val)} {s : Sect} {kvs : List (Key × Val)} (hw : (Val.dict top).WF) (hat : At (.dict top) [.str s.key] (.dict kvs))
    (ht : ∀ k w, (k, w) ∈ kvs → ∃ n, k = .str n) :
    ∃ l, alphanumericName (.dict top) s = .ok l ∧ ∀ n v, (Key.str n, v) ∈ kvs → n.toList.getLast? ≠ some '\n' → ((∃ m ∈ l, m.path = [.str s.key, .str n]) ↔ ¬ Alnum n.toList) := by
  obtain ⟨l, h1, -, h2⟩ := C122_names hw s (fun v hv => by
    cases at_det hw hv hat
    exact ⟨kvs, rfl, ht⟩)
  refine ⟨l, h1, fun n v hm hlast => ?_⟩
  have hmb : MaybeBreak Alnum n ↔ Alnum n.toList := by
    constructor
    · rintro ⟨l, hl, e | e⟩
      · rw [e]
        exact hl
      · rw [e] at hlast
        simp at hlast
    · exact fun h => ⟨_, h, .inl rfl⟩
  rw [← hmb]
  constructor
  · rintro ⟨m, hm, hp⟩
    obtain ⟨n', v', -, hno, rfl⟩ := (h2 m).1 hm
    simp only [List.cons.injEq, Val.str.injEq, true_and, and_true] at hp
    subst hp
    exact hno
  · exact fun hno => ⟨_, (h2 _).2 ⟨n, v, at_append hat (.key hm .here), hno, rfl⟩, rfl⟩

/-- **C122**: a name that ends with a line break is not found. -/
theorem C122_names_violated : ¬ C122_names_statement := by
  intro h
  obtain ⟨l, h1, h2⟩ := h [(.str "Parameters", .dict [(.str "A\n", .dict [])])] .parameters [(.str "A\n", .dict [])] (by simp [Val.WF, Val.WFDict]) (at_dict_one.2 List.mem_cons_self) (by simp)
  have hl : l = [] := by
    have : alphanumericName (.dict [(.str "Parameters", .dict [(.str "A\n", .dict [])])]) .parameters = .ok [] := by decide +kernel
    rw [this] at h1
    cases h1
    rfl
  subst hl
  obtain ⟨m, hm, -⟩ := (h2 "A\n" (.dict []) List.mem_cons_self).2 (fun ha => by
    have := ha '\n' (by decide +kernel)
    revert this
    decide)
  cases hm

/-- **C122**: a name that is a number makes the rules raise, and so does a section that is no object. -/
theorem C122_raises {top : List (Key × Val)} (hw : (Val.dict top).WF) {s : Sect} {v : Val} (hat : At (.dict top) [.str s.key] v)
    (h : (∀ kvs, v ≠ .dict kvs) ∨ ∃ i w, At v [.int i] w ∧ ∃ kvs, v = .dict kvs) : ∃ e, alphanumericName (.dict top) s = .error e := by
  rw [Val.WF] at hw
  unfold alphanumericName
  dsimp only [Val.getD]
  rw [dlookup_of_mem hw.1 (at_dict_one.1 hat), Option.getD_some]
  rcases h with h | ⟨i, w, h, kvs, rfl⟩
  · cases v with
    | dict kvs => exact absurd rfl (h kvs)
    | _ => exact ⟨_, rfl⟩
  · have hm := at_dict_one.1 h
    simp only [pyItems]
    clear hat h
    induction kvs with
    | nil => cases hm
    | cons kv kvs ih =>
      rw [gatherAll]
      cases ho : oddName s kv with
      | error e => exact ⟨e, rfl⟩
      | ok ms =>
        rcases List.mem_cons.1 hm with e | hm
        · rw [← e] at ho
          cases ho
        · obtain ⟨e, he⟩ := ih hm
          dsimp only
          rw [he]
          exact ⟨e, rfl⟩

/-- the hypotheses are met -/
example : ∃ l, alphanumericName (.dict [(.str "Outputs", .dict [(.str "A-b", .dict []), (.str "Ab1", .dict [])])]) .outputs = .ok l ∧
    ⟨[.str "Outputs", .str "A-b"], "Output A-b has invalid name.  Name has to be alphanumeric."⟩ ∈ l := by
  obtain ⟨l, h1, -, h2⟩ := C122_names (top := [(.str "Outputs", .dict [(.str "A-b", .dict []), (.str "Ab1", .dict [])])]) (by simp [Val.WF, Val.WFDict]) .outputs (by
    intro v hv
    have := at_dict_one.1 hv
    simp [Sect.key] at this
    subst this
    refine ⟨_, rfl, fun k w h => ?_⟩
    simp only [List.mem_cons, Prod.mk.injEq, List.not_mem_nil, or_false] at h
    rcases h with ⟨rfl, -⟩ | ⟨rfl, -⟩ <;> exact ⟨_, rfl⟩)
  refine ⟨l, h1, (h2 _).2 ⟨"A-b", .dict [], .key List.mem_cons_self (.key List.mem_cons_self .here), ?_, by decide +kernel⟩⟩
  rw [← C74_alphanumeric]
  decide +kernel
example : ∃ e, alphanumericName (.dict [(.str "Outputs", .list [])]) .outputs = .error e :=
  C122_raises (by simp [Val.WF, Val.WFDict, Val.WFList]) (at_dict_one.2 List.mem_cons_self) (.inl (by simp))

end CfnLint
