import Verif.Spec.GetAtt
import Verif.Lemmas.Graph
import Verif.Lemmas.Split
/-
Lemmas about rule E1010.
-/
namespace CfnLint
open Spec

/-- the attributes of an entry of `Resources` -/
def entryAttrs (S : AttrSpecs) : Val → Option (List (String × AttrDecl))
  | .dict props =>
    match dlookup (Key.str "Type") props with
    | some (.str ty) => typeAttrs S ty
    | _ => none
  | _ => none

theorem attrLoop_spec (S : AttrSpecs) : ∀ (res : List (Key × Val)) (acc : AttrTable),
    (∀ kv ∈ res, ∃ props, kv.2 = .dict props) → (res.map Prod.fst).Nodup →
    ∃ tab, attrLoop S res acc = .ok tab ∧
      ∀ k, dlookup k tab = ((dlookup k res).bind (entryAttrs S)).or (dlookup k acc) := by
  intro res
  induction res with
  | nil => intro acc _ _; exact ⟨acc, by rw [attrLoop], fun k => by simp [dlookup]⟩
  | cons kv rest ih =>
    obtain ⟨name, value⟩ := kv
    intro acc hd hn
    obtain ⟨props, hp⟩ := hd _ List.mem_cons_self
    dsimp only at hp
    subst hp
    have hd' : ∀ kv ∈ rest, ∃ props, kv.2 = .dict props := fun kv h => hd kv (List.mem_cons_of_mem _ h)
    simp only [List.map_cons, List.nodup_cons] at hn
    have hnone : dlookup name rest = none := dlookup_none_iff.2 hn.1
    rw [attrLoop]
    simp only [pyIn, dhas, Val.subscript]
    have key : ∀ acc', (∀ k, dlookup k acc' = if k = name then (entryAttrs S (.dict props)).or (dlookup k acc) else dlookup k acc) →
        ∃ tab, attrLoop S rest acc' = .ok tab ∧
          ∀ k, dlookup k tab = ((dlookup k ((name, Val.dict props) :: rest)).bind (entryAttrs S)).or (dlookup k acc) := by
      intro acc' h
      obtain ⟨tab, h1, h2⟩ := ih acc' hd' hn.2
      refine ⟨tab, h1, fun k => ?_⟩
      rw [h2, h, dlookup]
      by_cases hk : k = name
      · subst hk
        simp [hnone]
      · have : ¬ name = k := fun e => hk e.symm
        simp [hk, this]
    cases ht : dlookup (Key.str "Type") props with
    | none =>
      simp only [Option.isSome_none]
      exact key acc (fun k => by split <;> simp [entryAttrs, ht])
    | some v =>
      simp only [Option.isSome_some]
      cases v with
      | str ty =>
        dsimp only
        cases ha : typeAttrs S ty with
        | none => exact key acc (fun k => by split <;> simp [entryAttrs, ht, ha])
        | some attrs =>
          refine key _ (fun k => ?_)
          rw [dlookup_dset]
          by_cases hk : k = name
          · simp [hk, entryAttrs, ht, ha]
          · have : ¬ name = k := fun e => hk e.symm
            simp [hk, this]
      | _ => exact key acc (fun k => by split <;> simp [entryAttrs, ht])

theorem startsAs_iff {s p : String} : startsWith s p = true ↔ StartsAs s p := by
  simp [startsWith, StartsAs, List.isPrefixOf_iff_prefix]

theorem inModule_spec (R : String) : ∀ (mods : List Key), (∀ k ∈ mods, ∃ n, k = .str n) →
    ∃ b, inModule (.str R) mods = .ok b ∧ (b = true ↔ ∃ M, Key.str M ∈ mods ∧ StartsAs R M) := by
  intro mods
  induction mods with
  | nil => intro _; exact ⟨false, by rw [inModule], by simp⟩
  | cons k ks ih =>
    intro h
    obtain ⟨n, rfl⟩ := h _ List.mem_cons_self
    obtain ⟨b, h1, h2⟩ := ih (fun k hk => h k (List.mem_cons_of_mem _ hk))
    rw [inModule]
    by_cases hs : startsWith R n = true
    · rw [if_pos hs]
      exact ⟨true, rfl, fun _ => ⟨n, List.mem_cons_self, startsAs_iff.1 hs⟩, fun _ => rfl⟩
    · rw [if_neg hs]
      refine ⟨b, h1, h2.trans ⟨?_, ?_⟩⟩
      · rintro ⟨M, hm, hb⟩; exact ⟨M, List.mem_cons_of_mem _ hm, hb⟩
      · rintro ⟨M, hm, hb⟩
        rcases List.mem_cons.1 hm with e | hm
        · cases e; exact absurd (startsAs_iff.2 hb) hs
        · exact ⟨M, hm, hb⟩

theorem splitDot_dotted {R A : String} (h : '.' ∉ R.toList) : splitDot (R ++ "." ++ A) = [.str R, .str A] := by
  have hd : (R ++ "." ++ A).toList.dropWhile (· ≠ '.') = '.' :: A.toList := by
    rw [String.toList_append, String.toList_append, List.append_assoc, List.dropWhile_append_of_pos]
    · rfl
    · intro c hc; simp only [decide_eq_true_eq]; rintro rfl; exact h hc
  have ht : (R ++ "." ++ A).toList.takeWhile (· ≠ '.') = R.toList := by
    rw [String.toList_append, String.toList_append, List.append_assoc, List.takeWhile_append_of_pos]
    · have : List.takeWhile (fun x : Char => decide (x ≠ '.')) (".".toList ++ A.toList) = [] := rfl
      rw [this, List.append_nil]
    · intro c hc; simp only [decide_eq_true_eq]; rintro rfl; exact h hc
  unfold splitDot
  rw [hd, ht]
  simp

theorem joinDots_dotted : ∀ (parts : List String), joinDots (parts.map Val.str) = .ok (dotted parts) := by
  intro parts
  induction parts with
  | nil => rfl
  | cons a rest ih =>
    cases rest with
    | nil => rfl
    | cons b rest =>
      simp only [List.map_cons] at ih
      simp only [List.map_cons, joinDots, ih, dotted]

/-- a reference that names an attribute is checked as such -/
theorem checkGetAtt_named {tab : AttrTable} {mods : List Key} {v : Val} {R A : String} (hR : R ≠ "")
    (h : NamesAttr v R A) : checkGetAtt tab mods v = checkResource tab mods (.str R) (some A) := by
  rcases h with ⟨rfl, hd⟩ | ⟨parts, hne, rfl, rfl⟩
  · rw [checkGetAtt]
    have hl : ¬ (R ++ "." ++ A).toList.length < 2 := by
      have : R.toList ≠ [] := by simpa using hR
      have := List.length_pos_of_ne_nil this
      have e : (".".toList).length = 1 := rfl
      rw [String.toList_append, String.toList_append, List.length_append, List.length_append, e]
      omega
    rw [if_neg hl, splitDot_dotted hd]
  · cases parts with
    | nil => exact absurd rfl hne
    | cons a rest =>
      simp only [List.map_cons]
      rw [checkGetAtt]
      have := joinDots_dotted (a :: rest)
      simp only [List.map_cons] at this
      rw [this]

/-- the attribute is reported -/
theorem checkAttr_closed {attrs : List (String × AttrDecl)} {A : String} (hn : (attrs.map Prod.fst).Nodup)
    (hs : ∀ d, ("*", d) ∉ attrs)
    (hapart : ∀ B x d d', (B ++ "." ++ x, d) ∈ attrs → '.' ∉ B.toList → (B, d') ∈ attrs → d'.type = some "Map")
    (hmaps : ∀ M d, (M, d) ∈ attrs → d.type = some "Map" → '.' ∉ M.toList) :
    checkAttr attrs A = [] ↔ (∃ d, (A, d) ∈ attrs) ∨ ∃ M x d, (M, d) ∈ attrs ∧ d.type = some "Map" ∧ A = M ++ "." ++ x := by
  have hstar : dhas "*" attrs = false := by
    unfold dhas
    cases h : dlookup "*" attrs with
    | none => rfl
    | some d => exact absurd (dlookup_mem h) (hs d)
  have hhas : dhas A attrs = true ↔ ∃ d, (A, d) ∈ attrs := by
    unfold dhas
    cases h : dlookup A attrs with
    | none =>
      refine ⟨fun h => (by cases h), ?_⟩
      rintro ⟨d, hm⟩
      exact absurd (List.mem_map.2 ⟨_, hm, rfl⟩) (dlookup_none_iff.1 h)
    | some d => exact ⟨fun _ => ⟨d, dlookup_mem h⟩, fun _ => rfl⟩
  have hplain : (if !dhas A attrs && !dhas "*" attrs then [GaKind.attribute] else []) = [] ↔ ∃ d, (A, d) ∈ attrs := by
    rw [← hhas, hstar]
    cases dhas A attrs <;> simp
  unfold checkAttr
  by_cases hdot : '.' ∈ A.toList
  · obtain ⟨pre, suf, he, hpre⟩ : ∃ pre suf, A.toList = pre ++ '.' :: suf ∧ '.' ∉ pre := List.eq_append_cons_of_mem hdot
    have hA : A = String.ofList pre ++ "." ++ String.ofList suf := by
      apply String.toList_inj.1
      rw [he]
      simp
    rw [he, splitOn_append _ hpre]
    have hmap : ∀ M x, A = M ++ "." ++ x → '.' ∉ M.toList → M = String.ofList pre := by
      intro M x e hM
      have e2 := congrArg String.toList e
      rw [he, String.toList_append, String.toList_append, List.append_assoc] at e2
      have e3 := congrArg (List.takeWhile (fun c => decide (c ≠ '.'))) e2
      rw [List.takeWhile_append_of_pos (by intro c hc; simp only [decide_eq_true_eq]; rintro rfl; exact hpre hc),
        List.takeWhile_append_of_pos (by intro c hc; simp only [decide_eq_true_eq]; rintro rfl; exact hM hc)] at e3
      have h1 : List.takeWhile (fun x : Char => decide (x ≠ '.')) (".".toList ++ x.toList) = [] := rfl
      rw [h1] at e3
      simp at e3
      rw [e3]
      simp
    split
    · rename_i first b c heq
      simp only [List.cons.injEq] at heq
      obtain ⟨rfl, _⟩ := heq
      cases hl : dlookup (String.ofList pre) attrs with
      | none =>
        dsimp only
        rw [hplain]
        refine ⟨.inl, ?_⟩
        rintro (h | ⟨M, x, d, h1, h2, h3⟩)
        · exact h
        · rw [hmap M x h3 (hmaps M d h1 h2)] at h1
          exact absurd (List.mem_map.2 ⟨_, h1, rfl⟩) (dlookup_none_iff.1 hl)
      | some d =>
        dsimp only
        by_cases ht : d.type = some "Map"
        · simp only [ne_eq, ht, not_true_eq_false, if_false, true_iff]
          exact .inr ⟨_, _, d, dlookup_mem hl, ht, hA⟩
        · simp only [ne_eq, ht, not_false_eq_true, if_true, reduceCtorEq, false_iff]
          rintro (⟨d', h⟩ | ⟨M, x, d', h1, h2, h3⟩)
          · rw [hA] at h
            exact ht (hapart _ _ _ _ h (by simpa using hpre) (dlookup_mem hl))
          · rw [hmap M x h3 (hmaps M d' h1 h2)] at h1
            rw [dlookup_of_mem hn h1] at hl
            cases hl
            exact ht h2
    · rename_i hno
      cases hsp : splitOn '.' suf with
      | nil => exact absurd hsp (splitOn_ne_nil _ _)
      | cons b c => exact absurd (by rw [hsp]) (hno pre b c)
  · rw [splitOn_plain hdot]
    dsimp only
    rw [hplain]
    refine ⟨.inl, ?_⟩
    rintro (h | ⟨M, x, d, h1, h2, h3⟩)
    · exact h
    · exact absurd (by rw [h3]; simp) hdot

end CfnLint
